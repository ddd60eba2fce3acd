import Verif.Model.CText

/-! Model of /repo/src/lib/argv.c. Strings are lists of characters without the terminating NUL. -/

namespace Nfqlb.Argv

/-- One call of `strtok_r`, as used in /repo/src/lib/argv.c:21, :24, :40 and :46 (glibc): skips delimiters; NULL at the end; otherwise the text up to the next delimiter, which is overwritten with NUL, and
the text after it. -/
def strtok (delim s : List Char) : Option (List Char × List Char) :=
  let s := s.dropWhile (fun c => delim.contains c)
  if s = [] then none
  else some (s.takeWhile (fun c => !delim.contains c), (s.dropWhile (fun c => !delim.contains c)).drop 1)

/-- Each call leaves less text. -/
theorem strtok_lt {delim s t r : List Char} (h : strtok delim s = some (t, r)) : r.length < s.length := by
  unfold strtok at h
  dsimp only at h
  split at h
  · cases h
  · rename_i hne
    cases h
    have h1 : (s.dropWhile (fun c => delim.contains c)).length ≤ s.length := (List.dropWhile_sublist _).length_le
    have h2 : ((s.dropWhile (fun c => delim.contains c)).dropWhile (fun c => !delim.contains c)).length ≤ (s.dropWhile (fun c => delim.contains c)).length := (List.dropWhile_sublist _).length_le
    rw [List.length_drop]
    have h3 : 0 < (s.dropWhile (fun c => delim.contains c)).length := List.length_pos_iff.2 hne
    omega

/-- Pass 1, /repo/src/lib/argv.c:17-25: counts the tokens. -/
def count (delim s : List Char) (len : Nat) : Nat :=
  match h : strtok delim s with
  | none => len
  | some (_, r) => count delim r (u32 (len + 1))
termination_by s.length
decreasing_by exact strtok_lt h

/-- The loop of pass 2, /repo/src/lib/argv.c:40-47, with an array of `cap` pointers that begins with `arg`: writing behind the array is undefined (the strings are there). -/
def fill (delim s : List Char) (cap : Nat) (arg : List (List Char)) : Res (List (List Char)) :=
  match _h : strtok delim s with
  | none => .ok arg
  | some (t, r) => if cap ≤ arg.length then .ub else fill delim r cap (arg ++ [t.dropWhile (fun c => c == ' ')])
termination_by s.length
decreasing_by exact strtok_lt _h

/-- `mkargv` with `str` and `delim` not NULL, /repo/src/lib/argv.c:11-51: `none` for NULL. The array has `len + 1` pointers, the last one is NULL (:48). -/
def mkargv (str delim : List Char) : Res (Option (List (List Char))) :=
  if str = [] ∨ delim = [] then .ok none
  else
    let len := count delim str 0
    if len = 0 then .ok none
    else do
      let cap := len + 1
      let arg ← fill delim str cap []
      if cap ≤ arg.length then .ub else return some arg

end Nfqlb.Argv
