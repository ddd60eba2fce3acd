import Verif.Model.Basic

/-! Extended regular expressions as far as `regcomp`/`regexec` of the C library are used in /repo/src/lib/match.c:23-27 and :72. The expression there starts with `^` and ends with `$`
and is compiled without REG_NEWLINE: the whole string must match. -/

namespace Nfqlb.Regex

/-- Regular expressions. `cls p` is one character from a set. For `regcomp` and `regexec` of the C library, called in /repo/src/lib/match.c:26 and :72. -/
inductive Re where
  | none
  | eps
  | cls (p : Char → Bool)
  | seq (a b : Re)
  | alt (a b : Re)
  | star (a : Re)

/-- Concatenation; keeps the terms small. For `regcomp` and `regexec` of the C library, called in /repo/src/lib/match.c:26 and :72. -/
def mkSeq : Re → Re → Re
  | .none, _ => .none
  | .eps, b => b
  | a, b => .seq a b

/-- Alternative; keeps the terms small. For `regcomp` and `regexec` of the C library, called in /repo/src/lib/match.c:26 and :72. -/
def mkAlt : Re → Re → Re
  | .none, b => b
  | a, .none => a
  | a, b => .alt a b

/-- Is the empty string matched. For `regcomp` and `regexec` of the C library, called in /repo/src/lib/match.c:26 and :72. -/
def nullable : Re → Bool
  | .none => false
  | .eps => true
  | .cls _ => false
  | .seq a b => nullable a && nullable b
  | .alt a b => nullable a || nullable b
  | .star _ => true

/-- What remains to be matched after the character `c`. For `regcomp` and `regexec` of the C library, called in /repo/src/lib/match.c:26 and :72. -/
def deriv (c : Char) : Re → Re
  | .none => .none
  | .eps => .none
  | .cls p => if p c then .eps else .none
  | .seq a b => if nullable a then mkAlt (mkSeq (deriv c a) b) (deriv c b) else mkSeq (deriv c a) b
  | .alt a b => mkAlt (deriv c a) (deriv c b)
  | .star a => mkSeq (deriv c a) (.star a)

/-- `regexec(…) == 0` for an expression `^r$` (/repo/src/lib/match.c:72). -/
def matchesRe (r : Re) : List Char → Bool
  | [] => nullable r
  | c :: s => matchesRe (deriv c r) s

/-- A literal character. For `regcomp` and `regexec` of the C library, called in /repo/src/lib/match.c:26 and :72. -/
def chr (x : Char) : Re := .cls (fun c => c == x)
/-- A literal text. For `regcomp` and `regexec` of the C library, called in /repo/src/lib/match.c:26 and :72. -/
def lit : List Char → Re
  | [] => .eps
  | c :: s => .seq (chr c) (lit s)
/-- `r+` For `regcomp` and `regexec` of the C library, called in /repo/src/lib/match.c:26 and :72. -/
def plus (r : Re) : Re := .seq r (.star r)
/-- `r?` For `regcomp` and `regexec` of the C library, called in /repo/src/lib/match.c:26 and :72. -/
def opt (r : Re) : Re := .alt .eps r
/-- All of a list, one after the other. For `regcomp` and `regexec` of the C library, called in /repo/src/lib/match.c:26 and :72. -/
def seqs : List Re → Re
  | [] => .eps
  | r :: rs => .seq r (seqs rs)

end Nfqlb.Regex
