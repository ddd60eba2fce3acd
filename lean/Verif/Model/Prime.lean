import Verif.Model.Basic

/-! Model of `/repo/src/lib/prime.c`. -/

namespace Nfqlb.Prime

/-- The table `primes[]` (without the terminating 0), /repo/src/lib/prime.c:9-177. -/
def primes : List Nat :=
  [3, 5, 7, 11, 13, 17, 19, 23, 29, 31, 37, 41, 43, 47,
   53, 59, 61, 67, 71, 73, 79, 83, 89, 97, 101, 103, 107, 109,
   113, 127, 131, 137, 139, 149, 151, 157, 163, 167, 173, 179, 181, 191,
   193, 197, 199, 211, 223, 227, 229, 233, 239, 241, 251, 257, 263, 269,
   271, 277, 281, 283, 293, 307, 311, 313, 317, 331, 337, 347, 349, 353,
   359, 367, 373, 379, 383, 389, 397, 401, 409, 419, 421, 431, 433, 439,
   443, 449, 457, 461, 463, 467, 479, 487, 491, 499, 503, 509, 521, 523,
   541, 547, 557, 563, 569, 571, 577, 587, 593, 599, 601, 607, 613, 617,
   619, 631, 641, 643, 647, 653, 659, 661, 673, 677, 683, 691, 701, 709,
   719, 727, 733, 739, 743, 751, 757, 761, 769, 773, 787, 797, 809, 811,
   821, 823, 827, 829, 839, 853, 857, 859, 863, 877, 881, 883, 887, 907,
   911, 919, 929, 937, 941, 947, 953, 967, 971, 977, 983, 991, 997]

/-- The `for` loop of `isPrime` over the table, /repo/src/lib/prime.c:185-194.
Falling off the end of the table calls `die`. -/
def trial (n : Nat) : List Nat → Res Bool
  | [] => .die
  | t :: ts =>
    if u32 (t * t) > n then .ok true
    else if n % t = 0 then .ok false
    else trial n ts

/-- `isPrime`, /repo/src/lib/prime.c:180-195. -/
def isPrime (n : Nat) : Res Bool :=
  if n = 2 then .ok true
  else if n = 1 ∨ n % 2 = 0 then .ok false
  else trial n primes

/-- The loop `while (!isPrime(n)) n -= 2;`, /repo/src/lib/prime.c:207-210.
The first argument bounds the number of iterations; running out of it is
reported as `hang`.  `n -= 2` is unsigned. -/
def descend : Nat → Nat → Res Nat
  | 0, _ => .hang
  | fuel + 1, n =>
    match isPrime n with
    | .ok true => .ok n
    | .ok false => descend fuel (u32 (n + 4294967294))
    | .die => .die
    | .ub => .ub
    | .hang => .hang

/-- `primeBelow`, /repo/src/lib/prime.c:198-211.  At most `n` iterations of
the loop are allowed for. -/
def primeBelow (n : Nat) : Res Nat :=
  let n := if n ≥ 994009 then 994009 else n
  if n < 2 then .die
  else if n < 4 then .ok n
  else
    let n := if n % 2 = 0 then n - 1 else n
    descend n n

end Nfqlb.Prime
