import Verif.Native.Steps3
import Verif.Parse.Nest

/-!
# The invariant holds in every run

Auxiliary to C25.
-/

namespace FB.Native

open FB.Parse

variable {E : Enc} {reloc base : Nat} {env : Env} {s s' : PS} {n n' : NS} {f : Nat}

theorem NS.push_eq {t : LT} {n n' : NS} (h : n.push (ltNum t) = some n') : n' = n.pushE t (if ltNum t / 64 % 2 = 1 then 0 else 2) := by
  unfold NS.push at h
  split at h
  · cases h
  · cases h
    unfold NS.pushE
    split <;> rfl

theorem getLoopType_name (t : LT) (h : t ≠ .LAST_JUMP) : getLoopType t.name = some t := by
  cases t <;> first | rfl | decide +kernel | exact absurd rfl h

/-- The type of a loop is the last code in both compilers. -/
theorem Inv.takeLT (h : Inv E reloc base (X.of s) n f) {t : LT} {ln : Nat} {cs : List CW} (hc : s.code = ⟨.byteStr t.name, ln⟩ :: cs)
    (hf : 1 ≤ f) : n.getLastTok.1 = ltNum t ∧ Inv E reloc base (X.of (s.setCode cs)) n.getLastTok.2 (f - 1) := by
  have := h.last hf (c := ⟨.byteStr t.name, ln⟩) (cs := cs) hc
  simp only [E.lt, List.length_cons, List.length_nil] at this
  obtain ⟨_, h1, h2, h3⟩ := this
  refine ⟨?_, ?_⟩
  · have := h2 0 (by simp)
    simpa [NS.getLastTok] using this
  · rw [X.of_tail hc]; exact h3

theorem removeLT_name {t : LT} (ht : t ≠ .LAST_JUMP) {ln : Nat} {cs : List CW} (hc : s.code = ⟨.byteStr t.name, ln⟩ :: cs) :
    removeLT s = .ok (t, s.setCode cs) := by
  unfold removeLT removeStr PS.removeLast
  rw [hc]
  simp only [CK.getStr, getLoopType_name t ht]

theorem inv_pushLT (h : Inv E reloc base (X.of s) n f) {t : LT} (ht : t ∈ [LT.DO_LOOP, .REPEAT, .WHILE_1, .WHILE_2, .IF, .PROC_2])
    {ln : Nat} {cs : List CW} (hc : s.code = ⟨.byteStr t.name, ln⟩ :: cs) (hf : 1 ≤ f) (hs : ePushLT s = .ok s')
    (hn : n.ePushLT = some n') : Inv E reloc base (X.of s') n' 0 := by
  obtain ⟨h1, h2⟩ := h.takeLT hc hf
  unfold ePushLT at hs
  rw [removeLT_name (by rintro rfl; revert ht; decide) hc] at hs
  unfold NS.ePushLT at hn
  rw [h1] at hn
  have hn := NS.push_eq hn
  subst hn
  have key1 : ∀ u ∈ [LT.DO_LOOP, .REPEAT, .WHILE_1], t = u →
      Inv E reloc base (X.of (((s.setCode cs).pushLoop t).2.emit (.label ((s.setCode cs).pushLoop t).1)))
        (n.getLastTok.2.pushE t (if ltNum t / 64 % 2 = 1 then 0 else 2)) 0 := by
    intro u hu e
    subst e
    rw [X.of_emit, X.of_pushLoop, pushLoop_fst, if_pos (by revert hu; cases t <;> decide)]
    exact h2.loop hu _ _
  have key2 : ∀ u ∈ [LT.WHILE_2, .IF], t = u →
      Inv E reloc base (X.of (((s.setCode cs).pushLoop t).2.emit (.wordStr ((s.setCode cs).pushLoop t).1)))
        (n.getLastTok.2.pushE t (if ltNum t / 64 % 2 = 1 then 0 else 2)) 0 := by
    intro u hu e
    subst e
    rw [X.of_emit, X.of_pushLoop, pushLoop_fst, if_neg (by revert hu; cases t <;> decide)]
    exact h2.fwd hu _ _
  cases t with
  | DO_LOOP => cases hs; exact key1 _ (by decide) rfl
  | REPEAT => cases hs; exact key1 _ (by decide) rfl
  | WHILE_1 => cases hs; exact key1 _ (by decide) rfl
  | WHILE_2 => cases hs; exact key2 _ (by decide) rfl
  | IF => cases hs; exact key2 _ (by decide) rfl
  | PROC_2 => cases hs; rw [X.of_pushLoop]; exact h2.proc2 _
  | _ => exact absurd ht (by decide)

theorem code_emit (s : PS) (k : CK) : (s.emit k).code = ⟨k, s.linenum⟩ :: s.code := emit_code s k

theorem X.drop_emit (x : X) (c : CW) : (x.emit c).drop = x := by
  ext1 <;> try rfl
  funext q
  show (if x.cur = q then (if x.cur = q then c :: x.C q else x.C q).tail else (if x.cur = q then c :: x.C q else x.C q)) = _
  by_cases g : x.cur = q
  · simp only [if_pos g, List.tail_cons]
  · simp only [if_neg g]

theorem of_emit_tail (s : PS) (k : CK) : X.of ((s.emit k).setCode s.code) = X.of s := by
  rw [X.of_tail (code_emit s k), X.of_emit, X.drop_emit]

theorem X.of_push (s : PS) (t : LT) : X.of (s.pushLoop t).2 = (X.of s).open_ t s.linenum := X.of_pushLoop s t

theorem push_fst (s : PS) (t : LT) : (s.pushLoop t).1 = PS.jumpLabel ((X.of s).num + 1) := pushLoop_fst s t

theorem inv_for (h : Inv E reloc base (X.of s) n f) {s1 s2 : PS} {n1 n2 : NS}
    (hs1 : ePushLT (s.emit (.byteStr LT.FOR_2.name)) = .ok s1) (hn1 : (n.emitB (E.enc (.byteStr LT.FOR_2.name))).ePushLT = some n1)
    (hs2 : ePushLT (s1.emit (.byteStr LT.FOR_1.name)) = .ok s2) (hn2 : (n1.emitB (E.enc (.byteStr LT.FOR_1.name))).ePushLT = some n2) :
    Inv E reloc base (X.of s2) n2 0 := by
  have tok : ∀ (n : NS) (t : LT), (n.emitB (E.enc (.byteStr t.name))).getLastTok = (ltNum t, { n with mem := put n.mem n.cp [ltNum t] }) := by
    intro n t
    unfold NS.getLastTok NS.emitB
    simp only [E.lt, List.length_cons, List.length_nil, Nat.add_sub_cancel]
    have := put_in (m := n.mem) (a := n.cp) (bs := [ltNum t]) (i := 0) (by simp)
    simp only [Nat.add_zero, List.getElem_cons_zero] at this
    rw [this]
  unfold ePushLT at hs1
  rw [removeLT_name (by decide) (code_emit _ _)] at hs1
  cases hs1
  unfold ePushLT at hs2
  rw [removeLT_name (by decide) (code_emit _ _)] at hs2
  cases hs2
  unfold NS.ePushLT at hn1 hn2
  rw [tok] at hn1 hn2
  dsimp only at hn1 hn2
  have hn1 := NS.push_eq hn1
  rw [if_neg (by decide)] at hn1
  subst hn1
  have hn2 := NS.push_eq hn2
  rw [if_pos (by decide)] at hn2
  subst hn2
  rw [X.of_emit, X.of_push, push_fst, of_emit_tail, X.of_emit, X.of_push, push_fst, of_emit_tail]
  exact Inv.for_ (h.mem (m' := put (put n.mem n.cp [ltNum .FOR_2]) (n.cp + 2) [ltNum .FOR_1]) fun y hy => by
    rw [put_out (.inl (by omega)), put_out (.inl hy)]) _ _ _ _

theorem inv_popLoop (h : Inv E reloc base (X.of s) n f) {t : LT} (ht : t ∈ [LT.DO_LOOP, .REPEAT])
    {r : Option Str × PS} (hr : s.popLoop t = r) {l : Str} (hl : r.1 = some l) (hn : n.ePopLoop reloc t = some n') :
    Inv E reloc base (X.of ((r.2.emit (.wordStr l)).emit (.label (lblX l)))) n' 0 := by
  subst hr
  rcases popLoop_cases s t with ⟨hx, _⟩ | ⟨j, js, hj, hjt, h1, h2⟩
  · rw [hx] at hl; cases hl
  rw [h1] at hl; cases hl
  have hjt : j.type = t := hjt.elim id fun g => absurd (g.1 ▸ ht) (by decide)
  rw [X.of_emit, X.of_emit, X.of_same h2, X.of_popJ]
  exact Inv.popLoop h ht hj hjt _ hn

theorem inv_popProc2 (h : Inv E reloc base (X.of s) n f) (hs : FB.Parse.ePopProc2 s = .ok s') (hn : n.ePopProc2 reloc = some n') :
    Inv E reloc base (X.of s') n' 0 := by
  unfold FB.Parse.ePopProc2 at hs
  rcases popLoop_cases s .PROC_2 with ⟨hx, _⟩ | ⟨j, js, hj, hjt, h1, h2⟩
  · simp only [hx] at hs; cases hs
  simp only [h1] at hs; cases hs
  have hjt : j.type = .PROC_2 := hjt.elim id fun g => absurd g.1 (by decide)
  rw [X.of_emit, X.of_same h2, X.of_popJ]
  exact Inv.popProc2 h hj hjt _ hn

theorem inv_popData (h : Inv E reloc base (X.of s) n f) (hs : FB.Parse.ePopProcData s = .ok s') (hn : n.ePopProcData reloc = some n') :
    Inv E reloc base (X.of s') n' 0 := by
  unfold FB.Parse.ePopProcData at hs
  rcases popLoop_cases s .PROC_DATA with ⟨hx, _⟩ | ⟨j, js, hj, hjt, h1, h2⟩
  · simp only [hx] at hs; cases hs
  simp only [h1] at hs
  have hjt : j.type = .PROC_DATA := hjt.elim id fun g => absurd g.1 (by decide)
  have hst : (s.popLoop .PROC_DATA).2.procStack = s.procStack := h2.procStack
  unfold PS.popProc at hs
  cases hps : s.procStack with
  | nil => rw [hst, hps] at hs; cases hs
  | cons p ps =>
    rw [hst, hps] at hs
    dsimp only at hs
    split at hs
    · cases hs
    · next s2 hs2 =>
      split at hs2
      · cases hs2
        cases hs
        have e : X.of { (s.popLoop .PROC_DATA).2 with procStack := ps } = { X.of s with jumps := js, stack := (X.of s).stack.tail } := by
          have := X.of_same h2
          rw [X.of_popJ] at this
          show { X.of (s.popLoop .PROC_DATA).2 with stack := ps } = _
          rw [this]
          show _ = ({ X.of s with jumps := js, stack := s.procStack.tail } : X)
          rw [hps]; rfl
        rw [e]
        exact Inv.popData h hj hjt hn
      · cases hs2

theorem inv_popWhile (h : Inv E reloc base (X.of s) n f) (hs : FB.Parse.ePopWhile s = .ok s') (hn : n.ePopWhile reloc = some n') :
    Inv E reloc base (X.of s') n' 0 := by
  unfold FB.Parse.ePopWhile at hs
  rcases popLoop_cases s .WHILE_2 with ⟨hx, _⟩ | ⟨j2, js2, hj2, hjt2, h1, h2⟩
  · simp only [hx] at hs; cases hs
  rcases popLoop_cases (s.popLoop .WHILE_2).2 .WHILE_1 with ⟨hx, _⟩ | ⟨j1, js, hj1, hjt1, g1, g2⟩
  · simp only [hx, h1] at hs; cases hs
  simp only [h1, g1] at hs; cases hs
  have hjt1 : j1.type = .WHILE_1 := hjt1.elim id fun g => absurd g.1 (by decide)
  have hjt2 : j2.type = .WHILE_2 := hjt2.elim id fun g => absurd g.1 (by decide)
  have hj : s.jumps = j2 :: j1 :: js := by rw [hj2, ← hj1, h2.jumps]; rfl
  rw [X.of_emit, X.of_emit, X.of_emit, X.of_same g2, X.of_popJ, X.of_same h2, X.of_popJ]
  exact Inv.popWhile h hj hjt2 hjt1 _ hn

theorem popJ_code (s : PS) (js : List Jump) : (popJ s js).code = s.code := code_congr rfl rfl

theorem inv_popFor (h : Inv E reloc base (X.of s) n f) {c : CW} {cs : List CW} (hc : s.code = c :: cs) (hf : 1 ≤ f)
    (he : (E.enc c.k).length = 1) (hs : FB.Parse.ePopFor s = .ok s') (hn : n.ePopFor reloc = some n') :
    Inv E reloc base (X.of s') n' 0 := by
  unfold FB.Parse.ePopFor at hs
  rcases popLoop_cases s .FOR_1 with ⟨hx, _⟩ | ⟨j1, js1, hj1, hjt1, h1, h2⟩
  · simp only [hx] at hs
    split at hs
    · next h => cases h
    · cases hs
  rcases popLoop_cases (s.popLoop .FOR_1).2 .FOR_2 with ⟨hx, _⟩ | ⟨j2, js, hj2, hjt2, g1, g2⟩
  · simp only [hx, h1] at hs; cases hs
  simp only [h1, g1] at hs
  have hjt1 : j1.type = .FOR_1 := hjt1.elim id fun g => absurd g.1 (by decide)
  have hj : s.jumps = j1 :: j2 :: js := by rw [hj1, ← hj2, h2.jumps]; rfl
  have hcode : ((s.popLoop .FOR_1).2.popLoop .FOR_2).2.code = c :: cs := by
    rw [g2.code, popJ_code, h2.code, popJ_code, hc]
  unfold PS.removeLast at hs
  rw [hcode] at hs
  cases hs
  obtain ⟨_, _, _, h3⟩ := h.last hf hc
  rw [he] at h3
  rw [X.of_emit, X.of_emit, X.of_emit, X.of_tail hcode, X.of_same g2, X.of_popJ, X.of_same h2, X.of_popJ]
  exact Inv.popFor (x := (X.of s).drop) h3 hj hjt1 _ hn

theorem inv_exit (h : Inv E reloc base (X.of s) n f) (hs : FB.Parse.eExitLoop s = .ok s') (hn : n.eExitLoop = some n') :
    Inv E reloc base (X.of s') n' 0 := by
  unfold FB.Parse.eExitLoop at hs
  split at hs
  · cases hs
  · cases hs
  · next j hj =>
    cases hs
    rw [X.of_emit]
    exact Inv.exit h hj _ hn

theorem inv_elseIf (h : Inv E reloc base (X.of s) n f) {t : LT} (ht : t ∈ [LT.ELSE, .ELIF]) {ln : Nat} {cs : List CW}
    (hc : s.code = ⟨.byteStr t.name, ln⟩ :: cs) (hf : 1 ≤ f) (hs : FB.Parse.eElseIf s = .ok s') (hn : n.eElseIf reloc = some n') :
    Inv E reloc base (X.of s') n' 0 := by
  obtain ⟨h1, h2⟩ := h.takeLT hc hf
  unfold FB.Parse.eElseIf at hs
  rcases popLoop_cases s .IF with ⟨hx, _⟩ | ⟨j, js, hj, hjt, g1, g2⟩
  · simp only [hx] at hs; cases hs
  have hjt : j.type = .IF := hjt.elim id fun g => absurd g.1 (by decide)
  have hcode : (s.popLoop .IF).2.code = ⟨.byteStr t.name, ln⟩ :: cs := by rw [g2.code, popJ_code, hc]
  simp only [g1] at hs
  rw [removeLT_name (by rintro rfl; revert ht; decide) hcode] at hs
  cases hs
  rw [X.of_emit, X.of_emit, X.of_push, push_fst, X.of_tail hcode, X.of_same g2, X.of_popJ]
  have hd := X.of_tail hc
  rw [hd] at h2
  obtain ⟨e, es, k1, k2, k3⟩ := Inv.elseIf (x := (X.of s).drop) h2 hj hjt ht
    ((s.popLoop LT.IF).snd.setCode cs).linenum (((s.popLoop LT.IF).snd.setCode cs).pushLoop t).snd.linenum
  have hl : n.loops = e :: es := k1
  unfold NS.eElseIf NS.pop at hn
  rw [hl] at hn
  dsimp only at hn
  rw [if_pos (.inl k2.symm)] at hn
  dsimp only at hn
  split at hn
  · cases hn
  · next n1 hn1 =>
    cases hn
    have e1 : (NS.getLastTok { n with loops := es }).1 = ltNum t := h1
    unfold NS.ePushLT at hn1
    rw [e1] at hn1
    have := NS.push_eq hn1
    rw [if_neg (by revert ht; cases t <;> decide)] at this
    subst this
    exact k3

theorem inv_loops_nil (h : Inv E reloc base (X.of s) n f) (hj : s.jumps = []) : n.loops = [] := by
  obtain ⟨T, K, Fs, _, h2, _, _⟩ := h
  cases Fs with
  | nil => exact h2.es
  | cons F Fs =>
    have := h2.js
    rw [show (X.of s).jumps = s.jumps from rfl, hj] at this
    cases F <;> simp [Frame.js] at this

theorem inv_loops_cons (h : Inv E reloc base (X.of s) n f) {j : Jump} {js : List Jump} (hj : s.jumps = j :: js) :
    ∃ e es, n.loops = e :: es ∧ e.type = ltNum j.type := by
  obtain ⟨T, K, Fs, _, h2, _, _⟩ := h
  have := h2.js
  rw [show (X.of s).jumps = s.jumps from rfl, hj] at this
  cases Fs with
  | nil => cases this
  | cons F Fs =>
    cases F with
    | loop t m ln p xs => obtain ⟨rfl, _⟩ := List.cons.inj this; exact ⟨_, _, h2.es, rfl⟩
    | for_ m1 ln1 p1 m2 ln2 p2 xs => obtain ⟨rfl, _⟩ := List.cons.inj this; exact ⟨_, _, h2.es, rfl⟩
    | fwd t m ln p => obtain ⟨rfl, _⟩ := List.cons.inj this; exact ⟨_, _, h2.es, rfl⟩
    | data m ln p => obtain ⟨rfl, _⟩ := List.cons.inj this; exact ⟨_, _, h2.es, rfl⟩

theorem ltNum_inj {a b : LT} (h : ltNum a = ltNum b) : a = b := by
  revert h; cases a <;> cases b <;> decide

theorem popElifs_loops (l : List Ent) : ∀ (es : List Ent) (n : NS), NS.popElifs reloc es { n with loops := l } = NS.popElifs reloc es n
  | [], n => rfl
  | e :: es, n => by
    unfold NS.popElifs
    split
    · exact popElifs_loops l es (n.patch reloc e.pos)
    · rfl

theorem inv_elifs (k : Nat) : ∀ {s : PS} {n : NS}, Inv E reloc base (X.of s) n 0 → s.jumps.length ≤ k →
    Inv E reloc base (X.of (FB.Parse.popElifs k s)) (NS.popElifs reloc n.loops n) 0 := by
  induction k with
  | zero =>
    intro s n h hk
    have hj : s.jumps = [] := List.length_eq_zero_iff.1 (by omega)
    have := inv_loops_nil h hj
    have e : NS.popElifs reloc n.loops n = n := by
      rw [this]; show ({ n with loops := [] } : NS) = n; rw [← this]
    rw [e]; exact h
  | succ k ih =>
    intro s n h hk
    cases hj : s.jumps with
    | nil =>
      have := inv_loops_nil h hj
      have e : NS.popElifs reloc n.loops n = n := by
        rw [this]; show ({ n with loops := [] } : NS) = n; rw [← this]
      rw [e]
      unfold FB.Parse.popElifs
      rw [if_neg (by unfold PS.peekLoop; rw [hj]; simp)]
      exact h
    | cons j js =>
      obtain ⟨e, es, hl, he⟩ := inv_loops_cons h hj
      unfold FB.Parse.popElifs
      by_cases hjt : j.type = .ELIF
      · rw [if_pos (by unfold PS.peekLoop; rw [hj]; simp [hjt])]
        rcases popLoop_cases s .ELIF with ⟨hx, _⟩ | ⟨j', js', hj', _, g1, g2⟩
        · exfalso
          unfold PS.popLoop at hx
          rw [hj] at hx
          dsimp only at hx
          rw [if_neg (by simp [hjt])] at hx
          cases hx
        · rw [hj] at hj'
          obtain ⟨rfl, rfl⟩ := List.cons.inj hj'
          dsimp only
          rw [g1]
          obtain ⟨e', es', hl', _, h3⟩ := Inv.endFwd h hj (by rw [hjt]; decide) (s.popLoop .ELIF).2.linenum
          rw [hl] at hl'
          obtain ⟨rfl, rfl⟩ := List.cons.inj hl'
          have h4 : Inv E reloc base (X.of ((s.popLoop .ELIF).2.emit (.label (Option.getD (some j.label) []))))
              (NS.patch reloc { n with loops := es } e.pos) 0 := by
            rw [X.of_emit, X.of_same g2, X.of_popJ]; exact h3
          have h5 := ih h4 (by
            show (s.popLoop .ELIF).2.jumps.length ≤ k
            rw [g2.jumps]; rw [hj] at hk; simpa using hk)
          have e1 : NS.popElifs reloc n.loops n = NS.popElifs reloc es (NS.patch reloc { n with loops := es } e.pos) := by
            rw [hl, NS.popElifs, if_pos (by rw [he, hjt])]
            exact (popElifs_loops es es (n.patch reloc e.pos)).symm
          rw [e1]; exact h5
      · rw [if_neg (by unfold PS.peekLoop; rw [hj]; simp [hjt])]
        have e1 : NS.popElifs reloc n.loops n = n := by
          rw [hl, NS.popElifs, if_neg (by rw [he]; exact fun g => hjt (ltNum_inj g).symm), ← hl]
        rw [e1]; exact h

theorem inv_popIf (h : Inv E reloc base (X.of s) n f) (hs : FB.Parse.ePopIf s = .ok s') (hn : n.ePopIf reloc = some n') :
    Inv E reloc base (X.of s') n' 0 := by
  unfold FB.Parse.ePopIf at hs
  rcases popLoop_cases s .ELSE with ⟨hx, _⟩ | ⟨j, js, hj, hjt, g1, g2⟩
  · simp only [hx] at hs; cases hs
  simp only [g1] at hs; cases hs
  have hjt' : j.type ∈ [LT.IF, .ELSE, .ELIF] := by rcases hjt with g | g <;> simp [g]
  obtain ⟨e, es, hl, he, h3⟩ := Inv.endFwd h hj hjt' (s.popLoop .ELSE).2.linenum
  have h4 : Inv E reloc base (X.of ((s.popLoop .ELSE).2.emit (.label j.label))) (NS.patch reloc { n with loops := es } e.pos) 0 := by
    rw [X.of_emit, X.of_same g2, X.of_popJ]; exact h3
  unfold NS.ePopIf NS.pop at hn
  rw [hl] at hn
  dsimp only at hn
  rw [if_pos (by rcases hjt with g | g
                 · left; rw [he, g]
                 · right; rw [he, g.2]; exact ⟨rfl, rfl⟩)] at hn
  cases hn
  exact inv_elifs _ h4 (Nat.le_refl _)

theorem inv_labelDef (h : Inv E reloc base (X.of s) n f) {ln : Nat} {cs : List CW} (hc : s.code = ⟨.tok .JUMP, ln⟩ :: cs) (hf : 1 ≤ f)
    (hlast : s.lastLabel ≠ []) (hs : FB.Parse.eLabelDef s = .ok s') (hn : n.eLabelDef reloc = some n') :
    Inv E reloc base (X.of s') n' 0 := by
  obtain ⟨_, h1, h2, h3⟩ := h.last hf hc
  rw [E.tok] at h1 h2 h3
  have hcode : (s.pushLoop .PROC_DATA).2.code = ⟨.tok .JUMP, ln⟩ :: cs := by
    rw [← hc]; exact code_congr (by simp) (by simp)
  unfold FB.Parse.eLabelDef PS.removeLast at hs
  dsimp only at hs
  rw [hcode] at hs
  dsimp only at hs
  split at hs
  · cases hs
  cases hs
  rw [X.of_emit]
  have e1 : ∀ (z : PS) (v : Nat), X.of { z with curParams := v } = X.of z := fun z v => rfl
  have e2 : ∀ (l l' : Str) (lt : LabelT), (setLabel (((s.pushLoop .PROC_DATA).2.setCode cs).pushProc l) l' lt).lastLabel = s.lastLabel := by
    intro l l' lt
    show (s.pushLoop .PROC_DATA).2.lastLabel = _; simp
  have e3 : ((s.pushLoop .PROC_DATA).2.setCode cs).procStack = s.procStack := by
    show (s.pushLoop .PROC_DATA).2.procStack = _; simp
  rw [e1, X.of_setLabel, X.of_pushProc, X.of_tail hcode, X.of_push, push_fst, e2, e3]
  refine Inv.labelDef (x := (X.of s).drop) h3 h2 hlast s.linenum _ ?_
  have : ({ n with cp := n.cp - 1 + 1 } : NS) = n := by rw [Nat.sub_add_cancel h1]
  dsimp only
  rw [this]; exact hn

theorem inv_doExec (h : Inv E reloc base (X.of s) n f) (hlast : s.lastLabel ≠ []) (hs : FB.Parse.eDoExec s = .ok s')
    (hn : n.eDoExec reloc = some n') : Inv E reloc base (X.of s') n' 0 := by
  unfold FB.Parse.eDoExec at hs
  dsimp only at hs
  split at hs
  · cases hs
    cases hn
    rw [X.of_emit, X.of_setLabel]
    refine Inv.ref h ?_ _
    obtain ⟨T, K, Fs, _, _, h3, _⟩ := h
    exact h3.last hlast
  · cases hs

theorem getIdent_setCode (s : PS) (cs : List CW) : (s.setCode cs).getIdent.1 = s.getIdent.1 := by
  have key : ∀ z : PS, z.getIdent.1 = if (z.str[z.pos + PS.wsLen (z.str.drop z.pos)]?).any PS.identStartC then
      (if (PS.identLoop (z.str.drop (z.pos + PS.wsLen (z.str.drop z.pos)))).2 then
        some (PS.identLoop (z.str.drop (z.pos + PS.wsLen (z.str.drop z.pos)))).1 else none) else none := by
    intro z
    unfold PS.getIdent PS.skipws PS.cur
    dsimp only
    rw [apply_ite Prod.fst, apply_ite Prod.fst]
  rw [key, key]
  rfl

theorem inv_label (h : Inv E reloc base (X.of s) n f) {t : Str} {ln : Nat} {cs : List CW} (hc : s.code = ⟨.byteStr t, ln⟩ :: cs)
    (hf : 1 ≤ f) (hs : FB.Parse.eLabel s = .ok s') (hn : s.getIdent.1.bind (n.eLabel reloc) = some n') (hlen : n.names.length ≤ 256) :
    Inv E reloc base (X.of s') n' 0 := by
  obtain ⟨_, h1, h2, h3⟩ := h.last hf hc
  rw [E.str] at h1 h2 h3
  unfold FB.Parse.eLabel removeStr PS.removeLast at hs
  rw [hc] at hs
  simp only [CK.getStr] at hs
  split at hs
  · cases hs
  rw [getIdent_setCode] at hs
  cases hi : s.getIdent.1 with
  | none => rw [hi] at hs; cases hs
  | some name =>
    rw [hi] at hs hn
    dsimp only at hs
    split at hs
    · cases hs
    split at hs
    · cases hs
    cases hs
    change n.eLabel reloc name = some n' at hn
    unfold NS.eLabel at hn
    split at hn
    · next hmem =>
      cases hn
      have e1 : ∀ z : PS, X.of ((z.addText name).addSVar name) = X.of z := fun z =>
        X.of_eq (by simp) (by simp) (by simp) (by simp) (by simp)
      rw [X.of_emit, e1, X.of_same (getIdent_same _), X.of_tail hc]
      have hlt := List.idxOf_lt_length_of_mem hmem
      refine Inv.ref h3 ?_ _
      show n.names[n.names.idxOf name % 256]? = _
      rw [Nat.mod_eq_of_lt (by omega), List.getElem?_eq_getElem hlt, List.getElem_idxOf]
    · cases hn

theorem inv_create (h : Inv E reloc base (X.of s) n f) (hs : FB.Parse.eLabelCreate s = .ok s')
    (hn : s.getIdent.1.map n.eLabelCreate = some n') (hlen : n'.names.length ≤ 256) : Inv E reloc base (X.of s') n' 0 := by
  unfold FB.Parse.eLabelCreate at hs
  dsimp only at hs
  cases hi : s.getIdent.1 with
  | none => rw [hi] at hs; cases hs
  | some name =>
    rw [hi] at hs hn
    dsimp only at hs
    cases hn
    split at hs
    · cases hs
    cases hs
    have e1 : ∀ (z : PS), X.of { ((z.addText name).addSVar name) with lastLabel := name, curParams := 0 } =
        { X.of z with last := name } := fun z => by
      have : X.of ((z.addText name).addSVar name) = X.of z := X.of_eq (by simp) (by simp) (by simp) (by simp) (by simp)
      rw [← this]; rfl
    rw [e1, X.of_setLabel, X.of_same (getIdent_same s)]
    exact h.create name hlen

/-- Codes emitted after the last action are abandoned. -/
theorem inv_back : ∀ (d : Nat) {x : X} {n : NS} {f : Nat} (cs : List CW), Inv E reloc base x n f → d ≤ f → x.C x.cur = cs → d ≤ cs.length →
    Inv E reloc base { x with C := fun q => if x.cur = q then cs.drop d else x.C q }
      { n with cp := n.cp - ((cs.take d).map fun c => (E.enc c.k).length).sum } (f - d)
  | 0, x, n, f, cs, h, _, hc, _ => by
    have e : ({ x with C := fun q => if x.cur = q then cs.drop 0 else x.C q } : X) = x := by
      ext1 <;> try rfl
      funext q
      show (if x.cur = q then _ else _) = _
      split
      · next g => subst g; exact hc.symm
      · rfl
    rw [e]; simpa using h
  | d + 1, x, n, f, [], h, _, _, hl => by simp at hl
  | d + 1, x, n, f, c :: cs, h, hf, hc, hl => by
    obtain ⟨_, _, _, h3⟩ := h.last (by omega) hc
    have hd : x.drop.C x.drop.cur = cs := by
      show (if x.cur = x.cur then (x.C x.cur).tail else _) = _
      rw [if_pos rfl, hc]; rfl
    have h4 := inv_back d cs h3 (by omega) hd (by simpa using hl)
    have e1 : f - 1 - d = f - (d + 1) := by omega
    have e2 : n.cp - (E.enc c.k).length - ((cs.take d).map fun c => (E.enc c.k).length).sum =
        n.cp - (((c :: cs).take (d + 1)).map fun c => (E.enc c.k).length).sum := by
      simp only [List.take_succ_cons, List.map_cons, List.sum_cons]; omega
    have e3 : ({ x.drop with C := fun q => if x.drop.cur = q then cs.drop d else x.drop.C q } : X) =
        { x with C := fun q => if x.cur = q then (c :: cs).drop (d + 1) else x.C q } := by
      ext1 <;> try rfl
      funext q
      show (if x.cur = q then _ else (if x.cur = q then _ else x.C q)) = if x.cur = q then _ else _
      split <;> rfl
    rw [e1, e3] at h4
    dsimp only at h4
    rw [e2] at h4
    exact h4

theorem inv_restore (h : Inv E reloc base (X.of s) n f) (v : PS.Saved) (h1 : s.code.length ≤ v.opos + f) (h2 : v.opos ≤ s.code.length) :
    Inv E reloc base (X.of (s.restore v))
      { n with cp := n.cp - ((s.code.take (s.code.length - v.opos)).map fun c => (E.enc c.k).length).sum }
      (f - (s.code.length - v.opos)) := by
  have h3 := inv_back (s.code.length - v.opos) s.code h (by omega) rfl (by omega)
  have e : X.of (s.restore v) = { X.of s with C := fun q => if (X.of s).cur = q then s.code.drop (s.code.length - v.opos) else (X.of s).C q } := by
    ext1 <;> try rfl
    funext q
    show codeOf (s.setCode (PS.resize s.code v.opos)) q = if s.curProc = q then _ else codeOf s q
    have hr : PS.resize s.code v.opos = s.code.drop (s.code.length - v.opos) := by
      have := resize_append (s.code.take (s.code.length - v.opos)) (s.code.drop (s.code.length - v.opos))
      rw [List.take_append_drop, List.length_drop, show s.code.length - (s.code.length - v.opos) = v.opos by omega] at this
      exact this
    split
    · next g => subst g; rw [← hr]; exact setCode_code s _
    · next g => exact setCode_codeOf s _ (Ne.symm g)
  rw [e]; exact h3

end FB.Native
