import Verif.Rt.M6502
import Lean
/-!
# Names for the places in a routine

`code_labels c` defines, for each label `l` of the code `c`, the rest of the code from that label on (`c.l`), proves
what `find` gives for it (`c.l.find`) and what it looks like up to the next label (`c.l.eq`).  It also proves the same
of the whole (`c.top`).  This is only so that proofs by symbolic execution handle small terms.
-/
namespace FB.Rt
open Lean Elab Command Meta

partial def codeLines (e : Expr) : MetaM (List Expr) := do
  let e ← whnf e
  match e.getAppFnArgs with
  | (``List.cons, #[_, h, t]) => return (← whnf h) :: (← codeLines t)
  | _ => return []

syntax "code_labels" ident : command

elab_rules : command
  | `(code_labels $id) => do
    let c ← liftCoreM <| realizeGlobalConstNoOverload id
    let mkCons (h t : Expr) : MetaM Expr := mkAppM ``List.cons #[h, t]
    let info ← liftTermElabM do
      let lines ← codeLines (mkConst c)
      let codeT := mkConst ``Code
      let nil := mkApp (mkConst ``List.nil [levelZero]) (mkConst ``Line)
      let mut cur := nil
      let mut out : List (Name × String) := []
      for h in lines.reverse do
        match h.getAppFnArgs with
        | (``Line.lb, #[s]) =>
          let .lit (.strVal l) := s | throwError "label expected"
          let n := c.str l
          addAndCompile (.defnDecl { name := n, levelParams := [], type := codeT, value := cur, hints := .abbrev, safety := .safe })
          addDecl (.thmDecl { name := n.str "eq", levelParams := [], type := ← mkEq (mkConst n) cur, value := ← mkEqRefl (mkConst n) })
          out := (n, l) :: out
          cur ← mkCons h (mkConst n)
        | _ => cur ← mkCons h cur
      let n := c.str "top"
      addDecl (.thmDecl { name := n, levelParams := [], type := ← mkEq (mkConst c) cur, value := ← mkEqRefl (mkConst c) })
      return out
    let cid := mkIdent (`_root_ ++ c)
    let mut steps : Array Ident := #[]
    let mut prev := c
    for (n, l) in info do
      let thm := mkIdent (`_root_ ++ prev.str "after")
      let p := mkIdent (`_root_ ++ prev)
      let d := mkIdent (`_root_ ++ n)
      elabCommand (← `(command| theorem $thm (l : String) : find l $p = if $(quote l) = l then some $d else find l $d := rfl))
      steps := steps.push thm
      prev := n
    let labels := info.toArray
    for h : k in [0 : labels.size] do
      let (n, l) := labels[k]
      let thm := mkIdent (`_root_ ++ n.str "find")
      let d := mkIdent (`_root_ ++ n)
      let mut pf ← `((Eq.trans ($(steps[k]!) _) (if_pos rfl)))
      for i in [0 : k] do
        pf ← `((Eq.trans ($(steps[k - 1 - i]!) _) (Eq.trans (if_neg (by decide +kernel)) $pf)))
      elabCommand (← `(command| @[simp] theorem $thm : find $(quote l) $cid = some $d := $pf))

end FB.Rt
