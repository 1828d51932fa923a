import Verif.Parse.State

/-!
# The preprocessor of the syntax files

Model of `/repo/src/compiler/synt-preproc.cc`.
-/

namespace FB.Syn

open FB.Parse (Str ofS)

/-- The local variables of `preproc::read_input`, `/repo/src/compiler/synt-preproc.cc:34-35`. -/
structure PP where
  st : Nat := 0
  skip : Nat := 0
  word : Str := []
deriving DecidableEq, Repr

/-- The condition of a section, `synt-preproc.cc:65-68`: is 1 added to `skip`? `defs` are the words added with `add_def`. -/
def skips (defs : List Str) (word : Str) : Bool :=
  match word with
  | [] => false
  | 33 :: c :: w => defs.contains (c :: w)
  | w => !defs.contains w

/-- The `switch` in the loop of `read_input`, `synt-preproc.cc:38-91`. -/
def ppNext (defs : List Str) (q : PP) (c : Nat) : PP :=
  match q.st with
  | 0 => { q with st := if c = 35 then 1 else 0 }
  | 1 => { q with st := if c = 64 then 2 else 0 }
  | 2 => { q with st := if c = 105 ∨ c = 73 then 3 else if c = 101 ∨ c = 69 then 6 else 0 }
  | 3 => { q with st := if c = 102 ∨ c = 70 then 4 else 0 }
  | 4 => { q with st := if c = 32 then 5 else 0 }
  | 5 =>
    if 97 ≤ c ∧ c ≤ 122 then { q with word := q.word ++ [c - 32] }
    else if (65 ≤ c ∧ c ≤ 90) ∨ c = 95 ∨ (q.word = [] ∧ c = 33) then { q with word := q.word ++ [c] }
    else { st := 0, skip := q.skip + if skips defs q.word then 1 else 0, word := [] }
  | 6 => { q with st := if c = 110 ∨ c = 78 then 7 else 0 }
  | 7 => { q with st := if c = 100 ∨ c = 68 then 8 else 0 }
  | 8 => { q with st := if c = 105 ∨ c = 73 then 9 else 0 }
  | 9 => { q with st := if c = 102 ∨ c = 70 then 10 else 0 }
  | _ => { q with st := 0, skip := q.skip - 1 }

/-- `preproc::read_input`, `synt-preproc.cc:29-96`: each character changes the state, and then is kept if nothing is skipped,
or if it is an end of line or a `#`. -/
def readInput (defs : List Str) : PP → Str → Str
  | _, [] => []
  | q, c :: cs =>
    let q := ppNext defs q c
    if q.skip = 0 ∨ c = 10 ∨ c = 35 then c :: readInput defs q cs else readInput defs q cs

end FB.Syn
