import Verif.Drv.Main

/-!
# Target files

Model of `target_file::read_file` (`/repo/src/compiler/target.cc:32-126`), which reads the definition of a target: the syntax
files, the library, the configuration of the linker, the options of the assembler and the extension of the programs.
-/

namespace FB.Drv

open FB.Parse (Str ofS)

/-- The fields of `target_file`, `/repo/src/compiler/target.cc:34-39`. -/
structure Tgt where
  slist : List Str := []
  ca65 : List Str := []
  lib : Str := []
  cfg : Str := []
  ext : Str := []
deriving DecidableEq, Repr

/-- The characters in `" \t\r\n"`, `/repo/src/compiler/target.cc:76`. -/
def blank (c : Nat) : Bool := c == 32 || c == 9 || c == 13 || c == 10

/-- The lines given by `while(std::getline(f, line).good())`, `/repo/src/compiler/target.cc:73`. At the end of the file `getline` sets
`eofbit` and the loop ends, also if characters were read after the last end of line. `cur` are the characters of the line until now. -/
def getLines (cur : Str) : Str → List Str
  | [] => []
  | c :: cs => if c = 10 then cur :: getLines [] cs else getLines (cur ++ [c]) cs

/-- The loop over the words of the arguments, `/repo/src/compiler/target.cc:103-109,113-119`: `find_first_of` from the current position
gives the end of the word, and `find_first_not_of` the next one. The number bounds the iterations (each one takes a character). -/
def wordLoop : Nat → Str → List Str
  | 0, _ => []
  | n + 1, s => if s = [] then [] else s.takeWhile (!blank ·) :: wordLoop n ((s.dropWhile (!blank ·)).dropWhile blank)

/-- The file opened for a name, `/repo/src/compiler/target.cc:56-64`, with `os::path_absolute` (`os.cc:39-48`) in Linux. `search` is
`os::search_path` on the list of directories (`os.cc:128-142`). -/
def tgtFile (search : Str → Str) (fname : Str) : Str :=
  let fname := if fname = [] then ofS "default" else fname
  let fname := if 46 ∈ fname then fname else addExt fname (ofS ".tgt")
  if fname.head? = some 47 then fname else search fname

/-- One line, `/repo/src/compiler/target.cc:75-124`. `inc` is the call of `read_file` for an `include`. A result of `none` is an
execution that did not end, an error is the exception. Simplified: the positions in the line are suffixes of it. -/
def tgtLine (inc : Str → Tgt → Option (Except Str Tgt)) (t : Tgt) (line : Str) : Option (Except Str Tgt) :=
  let s := line.dropWhile blank
  if s = [] ∨ s.head? = some 35 then some (.ok t)
  else
    let key := s.takeWhile (!blank ·)
    let args := (s.dropWhile (!blank ·)).dropWhile blank
    if key = ofS "include" then inc args t
    else if key = ofS "library" then some (.ok { t with lib := args })
    else if key = ofS "config" then some (.ok { t with cfg := args })
    else if key = ofS "extension" then some (.ok { t with ext := args })
    else if key = ofS "ca65" then some (.ok { t with ca65 := t.ca65 ++ wordLoop args.length args })
    else if key = ofS "syntax" then some (.ok { t with slist := t.slist ++ wordLoop args.length args })
    else some (.error key)

/-- The loop over the lines, `/repo/src/compiler/target.cc:71-125`. -/
def tgtLines (inc : Str → Tgt → Option (Except Str Tgt)) : Tgt → List Str → Option (Except Str Tgt)
  | t, [] => some (.ok t)
  | t, l :: r =>
    match tgtLine inc t l with
    | some (.ok t) => tgtLines inc t r
    | x => x

/-- `read_file`, `/repo/src/compiler/target.cc:54-126`. `fs` is the content of the files that can be opened; the number bounds the depth of the
calls for `include`, which the code does not limit. -/
def readTgt (search : Str → Str) (fs : Str → Option Str) : Nat → Str → Tgt → Option (Except Str Tgt)
  | 0, _, _ => none
  | n + 1, name, t =>
    match fs (tgtFile search name) with
    | none => some (.error (tgtFile search name))
    | some txt => tgtLines (readTgt search fs n) t (getLines [] txt)

end FB.Drv
