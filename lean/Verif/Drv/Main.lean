import Verif.Parse.State

/-!
# The driver of the cross compiler

Model of `/repo/src/compiler/main.cc` (options, order of the steps, names of the files) and of the functions of
`/repo/src/compiler/os.cc` that build names of files, in the variant for Linux.
-/

namespace FB.Drv

open FB.Parse (Str ofS)

/-- `find_last_of` with one character, used in `/repo/src/compiler/os.cc:88,97`: the position of the last `c`. -/
def lastIdx (c : Nat) : Str → Option Nat
  | [] => none
  | x :: xs =>
    match lastIdx c xs with
    | some i => some (i + 1)
    | none => if x = c then some 0 else none

/-- `os::add_extension`, `/repo/src/compiler/os.cc:86-93`. -/
def addExt (name ext : Str) : Str :=
  match lastIdx 46 name with
  | none => name ++ ext
  | some 0 => name ++ ext
  | some p => name.take p ++ ext

/-- `std::tolower` in the locale `C`, used in `/repo/src/compiler/os.cc:101-102` and `main.cc:70-76`. -/
def lower (c : Nat) : Nat := if 65 ≤ c ∧ c ≤ 90 then c + 32 else c

/-- `os::get_extension_lower`, `/repo/src/compiler/os.cc:95-104`. -/
def extLower (name : Str) : Str :=
  match lastIdx 46 name with
  | none => []
  | some 0 => []
  | some p => (name.drop (p + 1)).map lower

/-- The local variables of `main` that the options set, `/repo/src/compiler/main.cc:105-120` (with the fields of `comp`, which are set in
`/repo/src/compiler/compile.cc:165-173`). -/
structure Opts where
  outName : Str := []
  exeName : Str := []
  gotOut : Bool := false
  oneStep : Bool := false
  nextOut : Bool := false
  keep : Bool := false
  listing : Bool := false
  target : Str := ofS "default"
  cfg : Str := []
  listExt : Str := ofS ".list"
  debug : Bool := false
  optimize : Bool := true
  stats : Bool := false
  showText : Bool := false
  shortText : Nat := 0
  segname : Str := ofS "BYTECODE"
  linkOpts : List Str := []
  asmOpts : List Str := [ofS "-g"]
  syntaxPath : Option Str := none
  targetPath : Option Str := none
  bas : List (Str × Str) := []
  asm : List (Str × Str) := []
  link : List Str := []
deriving DecidableEq, Repr

/-- `arg.rfind(p, 0) == 0`, used in all the tests of `/repo/src/compiler/main.cc:153-240`: `arg` begins with `p`. -/
def starts (arg p : Str) : Bool := p.isPrefixOf arg

/-- The test of the options with an argument, for example `/repo/src/compiler/main.cc:153`: `-l:` or `-l=`. -/
def optArg (arg p : Str) : Bool := starts arg (p ++ ofS ":") || starts arg (p ++ ofS "=")

/-- A file of BASIC, assembler or object code in the command line, `/repo/src/compiler/main.cc:246-283`. -/
def fileStep (o : Opts) (arg : Str) : Opts :=
  let lext := extLower arg
  if lext = ofS "o" ∨ lext = ofS "obj" then { o with link := o.link ++ [arg] }
  else if lext = ofS "s" ∨ lext = ofS "asm" then
    let obj := if o.gotOut then addExt o.outName (ofS ".o") else addExt arg (ofS ".o")
    { o with gotOut := false, asm := o.asm ++ [(arg, obj)], link := if o.oneStep then o.link else o.link ++ [obj] }
  else
    let asm := if o.gotOut then addExt o.outName (ofS ".asm") else addExt arg (ofS ".asm")
    let obj := if o.gotOut then addExt o.outName (ofS ".o") else addExt arg (ofS ".o")
    { o with gotOut := false, bas := o.bas ++ [(arg, asm)]
             asm := if o.oneStep then o.asm else o.asm ++ [(asm, obj)]
             link := if o.oneStep then o.link else o.link ++ [obj] }

/-- One argument of the command line, the body of the loop in `/repo/src/compiler/main.cc:125-284`. An error is the code given to
the system: 0 after `-v` and `-h`, 1 after a message. Simplified: `num` is the number of `-ls:` when it is valid, from 1 to 256
(`std::stoi` and the test in lines 166-175); the lists of directories are kept as texts. -/
def argStep (num : Str → Option Nat) (o : Opts) (arg : Str) : Except Nat Opts :=
  if o.nextOut then
    .ok { o with outName := arg, exeName := if o.exeName = [] then arg else o.exeName, nextOut := false }
  else if arg = ofS "-d" then .ok { o with debug := true }
  else if arg = ofS "-n" then .ok { o with optimize := false }
  else if arg = ofS "-prof" then .ok { o with stats := true }
  else if arg = ofS "-v" then .error 0
  else if arg = ofS "-c" then .ok { o with oneStep := true }
  else if arg = ofS "-l" then .ok { o with showText := true }
  else if optArg arg (ofS "-l") then
    if arg.drop 3 = [] ∨ (arg.drop 3).map lower = ofS "bas" then .error 1
    else .ok { o with showText := true, listExt := ofS "." ++ arg.drop 3 }
  else if arg = ofS "-ls" then .ok { o with showText := true, shortText := 120 }
  else if optArg arg (ofS "-ls") then
    match num (arg.drop 4) with
    | none => .error 1
    | some n => .ok { o with showText := true, shortText := n }
  else if arg = ofS "-h" then .error 0
  else if arg = ofS "-keep" then .ok { o with keep := true, listing := true }
  else if arg = ofS "-g" then .ok { o with listing := true }
  else if arg = [] then .error 1
  else if starts arg (ofS "-o") then
    if o.gotOut then .error 1
    else if arg.drop 2 ≠ [] then
      .ok { o with gotOut := true, outName := arg.drop 2, exeName := if o.exeName = [] then arg.drop 2 else o.exeName }
    else .ok { o with gotOut := true, nextOut := true }
  else if optArg arg (ofS "-s") then
    if arg.drop 3 = [] ∨ 34 ∈ arg.drop 3 then .error 1 else .ok { o with segname := arg.drop 3 }
  else if optArg arg (ofS "-t") then
    if arg.drop 3 = [] ∨ 34 ∈ arg.drop 3 then .error 1 else .ok { o with target := arg.drop 3 }
  else if optArg arg (ofS "-C") then .ok { o with cfg := arg.drop 3 }
  else if optArg arg (ofS "-X") then .ok { o with asmOpts := o.asmOpts ++ [arg.drop 3] }
  else if optArg arg (ofS "-S") then .ok { o with linkOpts := o.linkOpts ++ [ofS "--start-addr", arg.drop 3] }
  else if optArg arg (ofS "-DL") then .ok { o with linkOpts := o.linkOpts ++ [ofS "--define", arg.drop 4] }
  else if optArg arg (ofS "-syntax-path") then .ok { o with syntaxPath := some (arg.drop 13) }
  else if optArg arg (ofS "-target-path") then .ok { o with targetPath := some (arg.drop 13) }
  else if arg.head? = some 45 then .error 1
  else .ok (fileStep o arg)

/-- The loop over the arguments, `/repo/src/compiler/main.cc:125-284`. -/
def argLoop (num : Str → Option Nat) : Opts → List Str → Except Nat Opts
  | o, [] => .ok o
  | o, a :: r =>
    match argStep num o a with
    | .error e => .error e
    | .ok o => argLoop num o r

/-- The command line and the two tests after the loop, `/repo/src/compiler/main.cc:105-288`. -/
def parseArgs (num : Str → Option Nat) (args : List Str) : Except Nat Opts :=
  match argLoop num {} args with
  | .error e => .error e
  | .ok o => if (o.bas = [] ∧ o.asm = [] ∧ o.link = []) ∨ o.nextOut then .error 1 else .ok o

/-- What the driver does to files: one call of the compiler, the assembler, the linker or `unlink`. -/
inductive Ev
  /-- `comp.compile_file`, `/repo/src/compiler/main.cc:319`; the listing is written if there is one (`compile.cc:189-194`). -/
  | compile (inp out : Str) (lst : Option Str)
  /-- `ca65`, `/repo/src/compiler/main.cc:331-340`. -/
  | assemble (inp out : Str) (lst : Option Str)
  /-- `ld65`, `/repo/src/compiler/main.cc:348-360`. The library and the configuration are left out. -/
  | link (inp : List Str) (out : Str) (lbl : Option Str)
  /-- `os::remove_file`, `/repo/src/compiler/main.cc:365-367`. -/
  | remove (f : Str)
deriving DecidableEq, Repr

/-- The name of the program, `/repo/src/compiler/main.cc:307-309`. -/
def exeOf (o : Opts) (binExt : Str) : Str :=
  match o.link with
  | [] => o.exeName
  | f :: _ => if o.exeName = [] then addExt f binExt else o.exeName

/-- The calls of the compiler, `/repo/src/compiler/main.cc:311-324`. -/
def basEvs (o : Opts) : List Ev :=
  o.bas.map fun f => .compile f.1 f.2 (if o.showText then some (addExt f.1 o.listExt) else none)

/-- The calls of the assembler, `/repo/src/compiler/main.cc:325-343`. -/
def asmEvs (o : Opts) : List Ev :=
  o.asm.map fun f => .assemble f.1 f.2 (if o.listing then some (addExt f.2 (ofS ".lst")) else none)

/-- The call of the linker, `/repo/src/compiler/main.cc:344-363`. -/
def linkEvs (o : Opts) (binExt : Str) : List Ev :=
  if o.link = [] then []
  else [.link o.link (exeOf o binExt) (if o.listing then some (addExt (exeOf o binExt) (ofS ".lbl")) else none)]

/-- `temp_files`, `/repo/src/compiler/main.cc:322-323,341-342`, when all steps are done. -/
def temps (o : Opts) : List Str := if o.oneStep then [] else o.bas.map (·.2) ++ o.asm.map (·.2)

/-- The removal of the files, `/repo/src/compiler/main.cc:364-367`. -/
def rmEvs (o : Opts) : List Ev := if o.keep then [] else (temps o).map .remove

/-- The steps, one after the other, until one fails: the `return` in `/repo/src/compiler/main.cc:320-321,339-340,361-362`. `st` is
the result of each step, which can depend on all that was done before. A failed removal is ignored (`os.cc:230-237`). -/
def steps (st : List Ev → Nat) : List Ev → List Ev → List Ev × Nat
  | h, [] => (h, 0)
  | h, .remove f :: r => steps st (h ++ [.remove f]) r
  | h, e :: r => if st (h ++ [e]) = 0 then steps st (h ++ [e]) r else (h ++ [e], 1)

/-- `main` after the target was read, `/repo/src/compiler/main.cc:302-369`. Simplified: all failures give 1. -/
def runMain (o : Opts) (binExt : Str) (st : List Ev → Nat) : List Ev × Nat :=
  steps st [] (basEvs o ++ asmEvs o ++ linkEvs o binExt ++ rmEvs o)

end FB.Drv
