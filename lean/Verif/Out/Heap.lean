import Verif.Parse.Vars

/-!
# The variables in the output

Model of the part of `compile_file` that writes the variables (`/repo/src/compiler/compile.cc:306-328`) and of the
place that the assembler and linker give them in the segment `HEAP`.
-/

namespace FB.Out

open FB.Parse

/-- `std::map::emplace` on the map from number and type to name, `/repo/src/compiler/compile.cc:320`. The map is a
list in increasing order of keys; an existing key keeps its value. -/
def vemplace (k : Nat) (n : Str) : List (Nat × Str) → List (Nat × Str)
  | [] => [(k, n)]
  | (k', n') :: m => if k < k' then (k, n) :: (k', n') :: m else if k = k' then (k', n') :: m else (k', n') :: vemplace k n m

/-- The condition `!v.first.empty() && v.first[0] != '-'`, `/repo/src/compiler/compile.cc:319`. -/
def isUser (n : Str) : Bool := match n with | [] => false | c :: _ => c ≠ 45

/-- The loop that builds `vlist`, `/repo/src/compiler/compile.cc:316-320`. -/
def vlistFrom : List (Nat × Str) → List (Str × Nat) → List (Nat × Str)
  | m, [] => m
  | m, (n, k) :: vs => vlistFrom (if isUser n then vemplace k n m else m) vs

/-- `vlist`, `/repo/src/compiler/compile.cc:316-320`. -/
def vlist (vars : List (Str × Nat)) : List (Nat × Str) := vlistFrom [] vars

/-- `get_vt_size(VarType(v.first & 0xFF))`, `/repo/src/compiler/vartype.cc:69-86`, `compile.cc:325-327`. -/
def vtSize (k : Nat) : Nat := if k % 256 = 0 then 0 else if k % 256 ≤ 6 then 2 else if k % 256 = 7 then 6 else 0

/-- The symbols that the lines `fb_var_NAME: .res size` define (`/repo/src/compiler/compile.cc:323-328`): name, offset
from the start of the segment, size. The segment `HEAP` has no other contents when the program consists of one module
(other users of the segment: none in `/repo/src`). -/
def heapFrom : Nat → List (Nat × Str) → List (Str × Nat × Nat)
  | _, [] => []
  | o, (k, n) :: m => (n, o, vtSize k) :: heapFrom (o + vtSize k) m

/-- The segment `HEAP` of a program. -/
def heap (vars : List (Str × Nat)) : List (Str × Nat × Nat) := heapFrom 0 (vlist vars)

/-- `__HEAP_SIZE__` -/
def heapSize (vars : List (Str × Nat)) : Nat := ((heap vars).map fun e => e.2.2).sum

/-- The byte that the macro `makevar` writes for a symbol at the given offset:
`.byte <((fb_var_NAME - __HEAP_RUN__)/2)`, `/repo/src/compiler/compile.cc:310-312`. -/
def makevar (off : Nat) : Nat := off / 2 % 256

end FB.Out
