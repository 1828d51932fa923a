import Verif.Syn.NativeFp
import Verif.Syn.NativeInt
/-! Writes the tables of the native compilers after `syntax_merge` and after `syntax_optimize`, as computed by the model, to the standard output.
Usage, in `lean`: `lake env lean --run ../tools/gen_opt.txt NativeFp > Verif/Syn/NativeFpOpt.lean` -/
open FB FB.Syn FB.Parse

def showTok : Tok → String
  | .other s => s!"(.other {repr s})"
  | t => "." ++ ((toString (repr t)).splitOn ".").getLast!
def showD : DCode → String
  | .token t => s!".token {showTok t}"
  | .byteSym s => s!".byteSym {s}"
  | .wordSym s => s!".wordSym {s}"
  | .byteVal n => s!".byteVal {n}"
  | .wordVal n => s!".wordVal {n}"
def showP : PCode → String
  | .lit s => s!".lit {s}"
  | .emit d => s!".emit [{", ".intercalate (d.map showD)}]"
  | .emitRet d => s!".emitRet [{", ".intercalate (d.map showD)}]"
  | .call t => s!".call {t}"
  | .ext a => ".ext ." ++ ((toString (repr a)).splitOn ".").getLast!
  | .ret => ".ret"
def showSM (p : String) (T : SM) : String :=
  s!"def {p}{T.name} : SM := ⟨{T.name}, [\n" ++ ",\n".intercalate (T.lines.map fun l => s!"  [{", ".intercalate (l.map showP)}]") ++ s!"\n  ], {T.complete}⟩\n"

def main (args : List String) : IO Unit := do
  let ns := args.head!
  let (st, ts) := if ns = "NativeFp" then (NativeFp.n_PARSE_START, NativeFp.tables) else (NativeInt.n_PARSE_START, NativeInt.tables)
  let some (true, mg) := syntaxMerge st ts | throw (.userError "merge")
  let op := syntaxClean mg
  IO.println s!"import Verif.Syn.{ns}\n
/-!
# The optimized tables of the native compiler, `{ns}`

Generated by `tools/gen_opt.txt`: what the model of `syntax_optimize` gives with the tables of `Verif/Syn/{ns}.lean`; `C33_native` proves it. Do not edit.
-/
namespace FB.Syn.{ns}
"
  for T in mg do IO.println ("/-- A table after `syntax_merge`, `/repo/src/compiler/synt-optimize.cc:24-86`. -/\n" ++ showSM "g" T)
  IO.println s!"/-- The tables after `syntax_merge`, `/repo/src/compiler/synt-optimize.cc:24-86`. -/\ndef merged : SMs := [{", ".intercalate (mg.map fun T => s!"g{T.name}")}]\n"
  for T in op do IO.println ("/-- A table after `syntax_optimize`, `/repo/src/compiler/synt-optimize.cc:88-125`. -/\n" ++ showSM "o" T)
  IO.println s!"/-- The tables after `syntax_optimize`, `/repo/src/compiler/synt-optimize.cc:88-125`. -/\ndef opt : SMs := [{", ".intercalate (op.map fun T => s!"o{T.name}")}]\n"
  IO.println s!"end FB.Syn.{ns}"
