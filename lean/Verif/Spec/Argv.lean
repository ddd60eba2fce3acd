/-! Splitting of text at delimiters. -/

namespace Nfqlb.Spec.Argv

/-- `toks` are the maximal non-empty runs of characters of `s` that are not in `delim`, in order. -/
inductive Splits (delim : List Char) : List Char → List (List Char) → Prop
  /-- Only delimiters. -/
  | nil (s : List Char) : (∀ c ∈ s, c ∈ delim) → Splits delim s []
  /-- Delimiters, then a run up to the end. -/
  | last (d t : List Char) : (∀ c ∈ d, c ∈ delim) → t ≠ [] → (∀ c ∈ t, c ∉ delim) → Splits delim (d ++ t) [t]
  /-- Delimiters, a run, a delimiter, the rest. -/
  | cons (d t : List Char) (c : Char) (s : List Char) (ts : List (List Char)) : (∀ c ∈ d, c ∈ delim) → t ≠ [] → (∀ c ∈ t, c ∉ delim) → c ∈ delim → Splits delim s ts → Splits delim (d ++ t ++ c :: s) (t :: ts)

/-- Without leading spaces. -/
def trim (t : List Char) : List Char := t.dropWhile (fun c => c == ' ')

/-- Items, with commas between them. -/
def joined (items : List (List Char)) : List Char := List.intercalate [','] items

end Nfqlb.Spec.Argv
