import Verif.Rt.Labels
/-!
# Names for the places in a routine with parameters

`code_labels_p c (x : T) …` is as `code_labels` for a code that depends on parameters.
-/
namespace FB.Rt
open Lean Elab Command Meta

/-- The lines of a code and what follows them. -/
partial def codeLinesT (e : Expr) : MetaM (List Expr × Expr) := do
  let e' ← whnf e
  match e'.getAppFnArgs with
  | (``List.cons, #[_, h, t]) => let (l, r) ← codeLinesT t; return ((← whnf h) :: l, r)
  | _ => return ([], e')

syntax "code_labels_p" ident (ppSpace "(" ident " : " term ")")+ : command

elab_rules : command
  | `(code_labels_p $id $[($xs:ident : $ts)]*) => do
    let c ← liftCoreM <| realizeGlobalConstNoOverload id
    let mkCons (h t : Expr) : MetaM Expr := mkAppM ``List.cons #[h, t]
    let info ← liftTermElabM do
      let ty := (← getConstInfo c).type
      forallBoundedTelescope ty (some xs.size) fun fs _ => do
        let (lines, tail) ← codeLinesT (mkAppN (mkConst c) fs)
        let codeT ← mkForallFVars fs (mkConst ``Code)
        let mut cur := tail
        let mut out : List (Name × String) := []
        for h in lines.reverse do
          match h.getAppFnArgs with
          | (``Line.lb, #[s]) =>
            let .lit (.strVal l) := s | throwError "label expected"
            let n := c.str l
            addAndCompile (.defnDecl { name := n, levelParams := [], type := codeT, value := ← mkLambdaFVars fs cur, hints := .abbrev, safety := .safe })
            let e := mkAppN (mkConst n) fs
            addDecl (.thmDecl { name := n.str "eq", levelParams := [], type := ← mkForallFVars fs (← mkEq e cur), value := ← mkLambdaFVars fs (← mkEqRefl e) })
            out := (n, l) :: out
            cur ← mkCons h e
          | _ => cur ← mkCons h cur
        return out
    let app (n : Name) : CommandElabM Term := do
      let f := mkIdent (`_root_ ++ n)
      `($f $xs*)
    let bs ← (xs.zip ts).mapM fun (x, t) => do
      let x : Ident := ⟨x.raw⟩
      `(Lean.Parser.Term.bracketedBinderF| ($x:ident : $t))
    let cid ← app c
    let mut steps : Array Ident := #[]
    let mut prev := c
    for (n, l) in info do
      let thm := mkIdent (`_root_ ++ prev.str "after")
      let p ← app prev
      let d ← app n
      elabCommand (← `(command| theorem $thm $bs* (l : String) : find l $p = if $(quote l) = l then some $d else find l $d := rfl))
      steps := steps.push thm
      prev := n
    let labels := info.toArray
    let hole ← `(_)
    let hs : Array Term := (Array.range xs.size).map fun _ => hole
    for h : k in [0 : labels.size] do
      let (n, l) := labels[k]
      let thm := mkIdent (`_root_ ++ n.str "find")
      let d ← app n
      let mut pf ← `((Eq.trans ($(steps[k]!) $hs* _) (if_pos rfl)))
      for i in [0 : k] do
        pf ← `((Eq.trans ($(steps[k - 1 - i]!) $hs* _) (Eq.trans (if_neg (by decide +kernel)) $pf)))
      elabCommand (← `(command| @[simp] theorem $thm $bs* : find $(quote l) $cid = some $d := $pf))

end FB.Rt
