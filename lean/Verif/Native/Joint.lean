import Verif.Native.Run

/-!
# Runs of both compilers

The invariant `Inv` holds in every run of both compilers side by side. Auxiliary to C25.
-/

namespace FB.Native

open FB.Parse

variable {E : Enc} {reloc base : Nat} {env : Env} {s s' : PS} {n n' : NS} {f : Nat}

theorem names_checkExitL : ∀ (l : List Ent) (n : NS), (NS.checkExitL reloc l n).names = n.names
  | [], _ => rfl
  | e :: l, n => by
    unfold NS.checkExitL; split
    · exact names_checkExitL l _
    · rfl

theorem names_checkExit (n : NS) : (n.checkExit reloc).names = n.names := names_checkExitL _ _

theorem names_popElifs : ∀ (l : List Ent) (n : NS), (NS.popElifs reloc l n).names = n.names
  | [], _ => rfl
  | e :: l, n => by
    unfold NS.popElifs; split
    · exact names_popElifs l _
    · rfl

theorem names_push {a : Nat} (h : n.push a = some n') : n'.names = n.names := by
  unfold NS.push at h; split at h <;> cases h; rfl

theorem names_pop {a p : Nat} (h : n.pop a = some (p, n')) : n'.names = n.names := by
  unfold NS.pop at h
  split at h
  · cases h
  · split at h <;> cases h; rfl

theorem names_defLoop {num : Nat} : ∀ {l l' : List LAd} {n n' : NS}, NS.defLoop reloc num l n = some (l', n') → n'.names = n.names
  | [], l', n, n', h => by cases h; rfl
  | e :: l, l', n, n', h => by
    unfold NS.defLoop at h
    split at h
    · split at h
      · cases h
      · split at h
        · cases h
        · next g => cases h; exact names_defLoop (n := n.patch reloc e.pos) g
    · split at h
      · cases h
      · next g => cases h; exact names_defLoop g

theorem names_useLabel (n : NS) (k : Nat) : (n.useLabel reloc k).names = n.names := by
  unfold NS.useLabel; split <;> rfl

theorem names_pushLT (h : n.ePushLT = some n') : n'.names = n.names := by
  have e := names_push (n := n.getLastTok.2) h; exact e

theorem names_popLoop {t : LT} (h : n.ePopLoop reloc t = some n') : n'.names = n.names := by
  unfold NS.ePopLoop at h
  split at h
  · cases h
  · next g => cases h; rw [names_checkExit]; have e := names_pop g; exact e

/-- Names of labels are only added. -/
theorem names_action {name : Option Str} {a : Act} (h : n.action reloc name a = some n') : n.names.length ≤ n'.names.length := by
  have eq : n'.names = n.names → n.names.length ≤ n'.names.length := fun h => by rw [h]; exact Nat.le_refl _
  cases a
  case PUSH_LT => exact eq (names_pushLT h)
  case POP_LOOP => exact eq (names_popLoop h)
  case POP_REPEAT => exact eq (names_popLoop h)
  case POP_WHILE =>
    apply eq
    change n.ePopWhile reloc = _ at h
    unfold NS.ePopWhile at h
    split at h
    · cases h
    · next g =>
      dsimp only at h
      split at h
      · cases h
      · next g' => cases h; rw [names_checkExit]; have e1 := names_pop g; have e2 := names_pop g'; exact e2.trans e1
  case POP_IF =>
    apply eq
    change n.ePopIf reloc = _ at h
    unfold NS.ePopIf at h
    split at h
    · cases h
    · next g => cases h; rw [names_popElifs]; have e := names_pop g; exact e
  case POP_FOR =>
    apply eq
    change n.ePopFor reloc = _ at h
    unfold NS.ePopFor at h
    split at h
    · cases h
    · next g =>
      split at h
      · cases h
      · next g' => cases h; rw [names_checkExit]; have e1 := names_pop g; have e2 := names_pop g'; exact e2.trans e1
  case POP_PROC_2 =>
    apply eq
    change n.ePopProc2 reloc = _ at h
    unfold NS.ePopProc2 at h
    split at h
    · cases h
    · next g => cases h; rw [names_checkExit]; have e := names_pop g; exact e
  case POP_PROC_DATA =>
    apply eq
    change n.ePopProcData reloc = _ at h
    unfold NS.ePopProcData at h
    split at h
    · cases h
    · next g => cases h; have e := names_pop g; exact e
  case ELSEIF =>
    apply eq
    change n.eElseIf reloc = _ at h
    unfold NS.eElseIf at h
    split at h
    · cases h
    · next g =>
      split at h
      · cases h
      · next g' => cases h; have e1 := names_pop g; have e2 := names_pushLT g'; exact e2.trans e1
  case EXIT_LOOP =>
    apply eq
    change n.eExitLoop = _ at h
    unfold NS.eExitLoop at h
    split at h
    · cases h
    · split at h <;> cases h; rfl
  case LABEL_DEF =>
    apply eq
    change n.eLabelDef reloc = _ at h
    unfold NS.eLabelDef at h
    split at h
    · cases h
    · next g =>
      split at h
      · cases h
      · next g' => cases h; have e1 := names_push g; have e2 := names_defLoop g'; exact e2.trans e1
  case DO_EXEC => cases h; exact eq (names_useLabel _ _)
  case LABEL =>
    apply eq
    cases name with
    | none => cases h
    | some nm =>
      change n.eLabel reloc nm = _ at h
      unfold NS.eLabel at h
      split at h <;> cases h
      exact names_useLabel _ _
  case LABEL_CREATE =>
    cases name with
    | none => cases h
    | some nm =>
      cases h
      show _ ≤ (if nm ∈ n.names then n.names else n.names ++ [nm]).length
      split <;> simp
  all_goals cases h

theorem J.Step.names {j k : J} (h : J.Step E reloc env j k) : j.ns.names.length ≤ k.ns.names.length := by
  cases h with
  | forLoop _ h1 _ h2 => have e1 := names_pushLT h1; have e2 := names_pushLT h2; exact Nat.le_of_eq (congrArg List.length (e2.trans e1).symm)
  | act a _ _ h => exact names_action h
  | _ => exact Nat.le_refl _

/-- One step keeps the invariant. -/
theorem J.Step.inv {j k : J} (h : J.Step E reloc env j k) (hlen : k.ns.names.length ≤ 256)
    (hi : Inv E reloc base (X.of j.ps) j.ns j.fresh) : Inv E reloc base (X.of k.ps) k.ns k.fresh := by
  have hlen' : j.ns.names.length ≤ 256 := Nat.le_trans h.names hlen
  cases h with
  | emit c hc => show Inv _ _ _ (X.of (PS.emit _ _)) _ _; rw [X.of_emit]; exact Inv.emit hi ⟨c, _⟩ hc
  | back v h1 h2 => exact inv_restore hi v h1 h2
  | other h1 h2 h3 h4 h5 => show Inv _ _ _ (X.of _) _ _; rw [X.of_eq h1 h2 h3 h4 h5]; exact hi
  | forLoop h1 h2 h3 h4 => exact inv_for hi h1 h2 h3 h4
  | act a hg hs hn =>
    cases a
    case PUSH_LT => obtain ⟨t, ht, ln, cs, hc, hf⟩ := hg; exact inv_pushLT hi ht hc hf hs hn
    case POP_LOOP =>
      change FB.Parse.ePopLoop _ = _ at hs
      unfold FB.Parse.ePopLoop at hs
      dsimp only at hs
      split at hs
      · cases hs
      · next g => cases hs; exact inv_popLoop hi (by decide) rfl g hn
    case POP_REPEAT =>
      change FB.Parse.ePopRepeat _ = _ at hs
      unfold FB.Parse.ePopRepeat at hs
      dsimp only at hs
      split at hs
      · cases hs
      · next g => cases hs; exact inv_popLoop hi (by decide) rfl g hn
    case POP_WHILE => exact inv_popWhile hi hs hn
    case POP_IF => exact inv_popIf hi hs hn
    case POP_FOR => obtain ⟨c, cs, hc, hf, he⟩ := hg; exact inv_popFor hi hc hf he hs hn
    case POP_PROC_2 => exact inv_popProc2 hi hs hn
    case POP_PROC_DATA => exact inv_popData hi hs hn
    case ELSEIF => obtain ⟨t, ht, ln, cs, hc, hf⟩ := hg; exact inv_elseIf hi ht hc hf hs hn
    case EXIT_LOOP => exact inv_exit hi hs hn
    case LABEL_DEF => obtain ⟨ln, cs, hc, hf, hl⟩ := hg; exact inv_labelDef hi hc hf hl hs hn
    case DO_EXEC => exact inv_doExec hi hg hs hn
    case LABEL => obtain ⟨t, ln, cs, hc, hf⟩ := hg; exact inv_label hi hc hf hs hn hlen'
    case LABEL_CREATE => exact inv_create hi hs hn hlen
    all_goals cases hn

/-- The invariant at the start. -/
theorem inv_init (m : Nat → Nat) : Inv E reloc base (X.of (J.init m base).ps) (J.init m base).ns 0 := by
  have hC : ∀ q, codeOf initPS q = [] := by
    intro q; unfold codeOf initPS; simp only [lookup]
    split <;> rfl
  refine ⟨[], fun _ _ => False, [], ?_, ?_, ?_, Fresh.zero _ _⟩
  · refine ⟨rfl, fun q => hC q, nofun, nofun, nofun, ?_, ?_, ?_, nofun, nofun, .nil, by simp, ?_⟩
    · rintro l a b ⟨_, _, h, _⟩; exact h.elim
    · rintro l a ⟨_, _, h, _⟩; exact h.elim
    · rintro l a (⟨_, h, _⟩ | ⟨_, h, _⟩) <;> cases h
    · exact ⟨fun _ => base, rfl, .refl, fun q => ⟨base, .refl⟩⟩
  · refine ⟨rfl, rfl, rfl, nofun, nofun, .nil, nofun, ?_, nofun⟩
    rintro m l _ ⟨_, _, h, _⟩; cases h
  · refine ⟨.nil, nofun, ?_, fun h => absurd rfl h, nofun⟩
    rintro nm ⟨_, _, h, _⟩; cases h

/-- The invariant in every run. -/
theorem J.Steps.inv {m : Nat → Nat} {j : J} (h : J.Steps E reloc env (J.init m base) j) (hlen : j.ns.names.length ≤ 256) :
    Inv E reloc base (X.of j.ps) j.ns j.fresh := by
  generalize hj : J.init m base = i at h
  induction h with
  | refl => subst hj; exact inv_init m
  | tail h1 h2 ih => exact h2.inv hlen (ih (Nat.le_trans h2.names hlen))

end FB.Native
