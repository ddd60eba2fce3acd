import Verif.Model.Basic

/-! A reader for JSON text (RFC 8259), restricted: strings without escapes, numbers without sign, fraction and exponent, no `true`, `false` and `null`. Every text that it reads is JSON with the value that it gives. -/

namespace Nfqlb.Spec.J

inductive Json where
  | str (s : List Char)
  | num (n : Nat)
  | arr (l : List Json)
  | obj (l : List (List Char × Json))
  deriving Repr, BEq

/-- White space. -/
def isWs (c : Char) : Bool := c == ' ' || c == '\n' || c == '\t' || c == '\r'

def skip (s : List Char) : List Char := s.dropWhile isWs

/-- A character that may be in a string as it is: not a quotation mark, not a backslash, not a control character. -/
def plainChar (c : Char) : Bool := c != '"' && c != '\\' && decide (32 ≤ c.toNat)

/-- The rest of a string, after the quotation mark. -/
def string (s : List Char) : Option (List Char × List Char) :=
  match s.dropWhile plainChar with
  | '"' :: r => some (s.takeWhile plainChar, r)
  | _ => none

/-- A number: no leading zeros. -/
def number (s : List Char) : Option (Nat × List Char) :=
  let ds := s.takeWhile Char.isDigit
  if ds = [] ∨ (ds.head? = some '0' ∧ ds ≠ ['0']) then none else some (Nat.ofDigitChars 10 ds 0, s.dropWhile Char.isDigit)

mutual

/-- A value at the beginning of a text, and the rest of the text. -/
def value : Nat → List Char → Option (Json × List Char)
  | 0, _ => none
  | n + 1, s =>
    match skip s with
    | '"' :: r => (string r).map (fun x => (.str x.1, x.2))
    | '[' :: r =>
      match skip r with
      | ']' :: r => some (.arr [], r)
      | _ => (elements n r).map (fun x => (.arr x.1, x.2))
    | '{' :: r =>
      match skip r with
      | '}' :: r => some (.obj [], r)
      | _ => (members n r).map (fun x => (.obj x.1, x.2))
    | r => (number r).map (fun x => (.num x.1, x.2))

/-- The values of an array, up to and with the bracket. -/
def elements : Nat → List Char → Option (List Json × List Char)
  | 0, _ => none
  | n + 1, s =>
    match value n s with
    | none => none
    | some (v, r) =>
      match skip r with
      | ']' :: r => some ([v], r)
      | ',' :: r => (elements n r).map (fun x => (v :: x.1, x.2))
      | _ => none

/-- The members of an object, up to and with the brace. -/
def members : Nat → List Char → Option (List (List Char × Json) × List Char)
  | 0, _ => none
  | n + 1, s =>
    match skip s with
    | '"' :: r =>
      match string r with
      | none => none
      | some (k, r) =>
        match skip r with
        | ':' :: r =>
          match value n r with
          | none => none
          | some (v, r) =>
            match skip r with
            | '}' :: r => some ([(k, v)], r)
            | ',' :: r => (members n r).map (fun x => ((k, v) :: x.1, x.2))
            | _ => none
        | _ => none
    | _ => none

end

/-- The value of a JSON text. -/
def parse (s : List Char) : Option Json :=
  match value (2 * s.length + 2) s with
  | some (v, r) => if skip r = [] then some v else none
  | none => none

end Nfqlb.Spec.J
