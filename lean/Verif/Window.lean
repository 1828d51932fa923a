import Verif.Lock
/-! Replacing a window of the code by another: all positions outside run in lock step. -/
namespace FB

theorem splitOps_data : ∀ {n x ops r}, splitOps n x = some (ops, r) → ∀ o ∈ ops, o.isData = true
  | 0, x, ops, r, h => by simp only [splitOps, Option.some.injEq, Prod.mk.injEq] at h; simp [← h.1]
  | n+1, [], ops, r, h => by simp [splitOps] at h
  | n+1, a :: x, ops, r, h => by
    simp only [splitOps] at h
    split at h
    · rename_i hd
      cases hs : splitOps n x with
      | none => simp [hs] at h
      | some p =>
        simp only [hs, Option.map_some, Option.some.injEq, Prod.mk.injEq] at h
        obtain ⟨rfl, rfl⟩ := h
        intro o ho
        rcases List.mem_cons.1 ho with rfl | ho
        · exact hd
        · exact splitOps_data hs o ho
    · simp at h

theorem splitOps_eq : ∀ {n x ops r}, splitOps n x = some (ops, r) → x = ops ++ r
  | 0, x, ops, r, h => by simp only [splitOps, Option.some.injEq, Prod.mk.injEq] at h; simp [← h.1, ← h.2]
  | n+1, [], ops, r, h => by simp [splitOps] at h
  | n+1, a :: x, ops, r, h => by
    simp only [splitOps] at h
    split at h
    · cases hs : splitOps n x with
      | none => simp [hs] at h
      | some p =>
        simp only [hs, Option.map_some, Option.some.injEq, Prod.mk.injEq] at h
        obtain ⟨rfl, rfl⟩ := h
        simpa using splitOps_eq hs
    · simp at h

theorem splitOps_length : ∀ {n x ops r}, splitOps n x = some (ops, r) → ops.length = n
  | 0, x, ops, r, h => by simp only [splitOps, Option.some.injEq, Prod.mk.injEq] at h; simp [← h.1]
  | n+1, [], ops, r, h => by simp [splitOps] at h
  | n+1, a :: x, ops, r, h => by
    simp only [splitOps] at h
    split at h
    · cases hs : splitOps n x with
      | none => simp [hs] at h
      | some p =>
        simp only [hs, Option.map_some, Option.some.injEq, Prod.mk.injEq] at h
        obtain ⟨rfl, rfl⟩ := h
        simpa using splitOps_length hs
    · simp at h

theorem splitOps_of : ∀ {ops : List Codew}, (∀ o ∈ ops, o.isData = true) → ∀ r, splitOps ops.length (ops ++ r) = some (ops, r)
  | [], _, r => rfl
  | a :: ops, h, r => by
    simp only [List.mem_cons, forall_eq_or_imp] at h
    simp [splitOps, h.1, splitOps_of h.2 r]

/-- Operands never extend past a non-data item. -/
theorem splitOps_window : ∀ {n p x ops r}, splitOps n (p ++ x) = some (ops, r) → (∀ a ∈ x.head?, a.isData = false) →
    ∃ p', p = ops ++ p' ∧ r = p' ++ x
  | 0, p, x, ops, r, h, _ => by
    simp only [splitOps, Option.some.injEq, Prod.mk.injEq] at h; exact ⟨p, by simp [← h.1], h.2.symm⟩
  | n+1, [], [], ops, r, h, _ => by simp [splitOps] at h
  | n+1, [], a :: x, ops, r, h, hx => by
    have := hx a (by simp)
    simp [splitOps, this] at h
  | n+1, b :: p, x, ops, r, h, hx => by
    simp only [List.cons_append, splitOps] at h
    split at h
    · cases hs : splitOps n (p ++ x) with
      | none => simp [hs] at h
      | some q =>
        obtain ⟨o', r'⟩ := q
        simp only [hs, Option.map_some, Option.some.injEq, Prod.mk.injEq] at h
        obtain ⟨rfl, rfl⟩ := h
        obtain ⟨p', h1, h2⟩ := splitOps_window hs hx
        exact ⟨p', by simp [h1], h2⟩
    · simp at h

/-- Code positions related by replacing window `L` by `R`. -/
def WS (pre L R post : List Codew) : W → List Codew → List Codew → Prop := fun _ a b =>
  (∃ p, p <:+ pre ∧ a = p ++ (L ++ post) ∧ b = p ++ (R ++ post)) ∨ (a = b ∧ a <:+ post)

def NoLabel (L : List Codew) : Prop := ∀ a ∈ L, a.isLabel = false

theorem findLabel_append (l : String) (p q : List Codew) :
    findLabel l (p ++ q) = match findLabel l p with
      | some k => some (k ++ q)
      | none => findLabel l q := by
  induction p with
  | nil => simp [findLabel]
  | cons a p ih => simp only [List.cons_append, findLabel]; split <;> simp_all

theorem findLabel_nolabel {l : String} {L : List Codew} (h : NoLabel L) : findLabel l L = none := by
  induction L with
  | nil => rfl
  | cons a L ih =>
    have h1 : a.isLabel = false := h a (by simp)
    have : a ≠ .label l := by rintro rfl; simp [Codew.isLabel] at h1
    simp [findLabel, this, ih (fun b hb => h b (by simp [hb]))]

theorem findLabel_suffix {l : String} {P k : List Codew} (h : findLabel l P = some k) : k <:+ P := by
  induction P with
  | nil => simp [findLabel] at h
  | cons a P ih =>
    simp only [findLabel] at h
    split at h
    · simp only [Option.some.injEq] at h; subst h; exact List.suffix_refl _
    · exact (ih h).trans (List.suffix_cons a P)

theorem findLabel_window {pre L R post : List Codew} (hL : NoLabel L) (hR : NoLabel R) {l k1} (w : W)
    (h : findLabel l (pre ++ (L ++ post)) = some k1) :
    ∃ k2, findLabel l (pre ++ (R ++ post)) = some k2 ∧ WS pre L R post w k1 k2 := by
  rw [findLabel_append] at h ⊢
  cases hp : findLabel l pre with
  | some p =>
    simp only [hp, Option.some.injEq] at h ⊢
    exact ⟨_, rfl, .inl ⟨p, findLabel_suffix hp, h.symm, rfl⟩⟩
  | none =>
    simp only [hp] at h ⊢
    rw [findLabel_append, findLabel_nolabel hL] at h
    rw [findLabel_append, findLabel_nolabel hR]
    exact ⟨k1, h, .inr ⟨rfl, findLabel_suffix h⟩⟩

theorem suffix_tail {a : Codew} {l m : List Codew} (h : a :: l <:+ m) : l <:+ m :=
  (List.suffix_cons a l).trans h

theorem window_lock {env : Env} (he : EnvOK env) {pre L R post : List Codew}
    (hh : ∃ t L', L = .tok t :: L') (hL : NoLabel L) (hR : NoLabel R)
    (hcol : Codew.byteStr "PRINT_COLOR" ∉ pre ++ (L ++ post))
    (hwin : ∀ c1 c2, CR (WS pre L R post) c1 c2 → c1.code = L ++ post → c2.code = R ++ post →
      SimStep env (pre ++ (L ++ post)) (pre ++ (R ++ post)) (CR (WS pre L R post)) c1 c2)
    (c1 c2 : Cfg) (hr : CR (WS pre L R post) c1 c2) :
    SimStep env (pre ++ (L ++ post)) (pre ++ (R ++ post)) (CR (WS pre L R post)) c1 c2 := by
  obtain ⟨t0, L', hLt⟩ := hh
  have hlab : ∀ l k1, findLabel l (pre ++ (L ++ post)) = some k1 → 
      ∃ k2, findLabel l (pre ++ (R ++ post)) = some k2 ∧ WS pre L R post 0 k1 k2 :=
    fun l k1 h => findLabel_window hL hR 0 h
  rcases hr.code with ⟨p, hp, h1, h2⟩ | ⟨h12, hq⟩
  · match p, hp, h1, h2 with
    | [], hp, h1, h2 => exact hwin c1 c2 hr h1 h2
    | .label l :: p, hp, h1, h2 =>
      exact lock_label hr h1 h2 fun _ => .inl ⟨p, suffix_tail hp, rfl, rfl⟩
    | .tok t :: p, hp, h1, h2 =>
      cases hs : splitOps (arity env t) (p ++ (L ++ post)) with
      | none => exact sim_wrong (by simp [step, h1, hs])
      | some q =>
        obtain ⟨ops, r⟩ := q
        obtain ⟨p', hpp, hr'⟩ := splitOps_window hs (by simp [hLt, Codew.isData, Codew.isTok])
        have hd := splitOps_data hs
        have hs2 : splitOps (arity env t) (p ++ (R ++ post)) = some (ops, p' ++ (R ++ post)) := by
          have := splitOps_of hd (p' ++ (R ++ post))
          rw [splitOps_length hs] at this
          rw [hpp, List.append_assoc, this]
        have hp' : p' <:+ pre := by
          subst hpp; exact (List.suffix_append ops p').trans (suffix_tail hp)
        subst hr'
        by_cases hc : isCtl t = true
        · exact lock_ctl hr h1 h2 hs hs2 hc (fun _ => .inl ⟨p', hp', rfl, rfl⟩) (fun _ => .inl ⟨p', hp', rfl, rfl⟩)
            (fun l _ => hlab l)
        · refine lock_data he hr h1 h2 hs hs2 (by simpa using hc) (fun hm => hcol ?_) (fun _ _ => .inl ⟨p', hp', rfl, rfl⟩)
          subst hpp
          have : Codew.byteStr "PRINT_COLOR" ∈ pre := hp.mem (by simp [hm])
          simp [this]
    | .byte _ :: p, hp, h1, h2 => exact sim_wrong (by simp [step, h1])
    | .byteStr _ :: p, hp, h1, h2 => exact sim_wrong (by simp [step, h1])
    | .word _ :: p, hp, h1, h2 => exact sim_wrong (by simp [step, h1])
    | .wordStr _ :: p, hp, h1, h2 => exact sim_wrong (by simp [step, h1])
    | .varn _ _ :: p, hp, h1, h2 => exact sim_wrong (by simp [step, h1])
    | .fp _ :: p, hp, h1, h2 => exact sim_wrong (by simp [step, h1])
    | .str _ :: p, hp, h1, h2 => exact sim_wrong (by simp [step, h1])
  · match hc1 : c1.code, h12, hq with
    | [], h12, hq => exact sim_wrong (by simp [step, hc1])
    | .label l :: p, h12, hq =>
      exact lock_label hr hc1 h12.symm fun _ => .inr ⟨rfl, suffix_tail hq⟩
    | .tok t :: p, h12, hq =>
      cases hs : splitOps (arity env t) p with
      | none => exact sim_wrong (by simp [step, hc1, hs])
      | some q =>
        obtain ⟨ops, r⟩ := q
        have hpe := splitOps_eq hs
        have hsuf : r <:+ post := by
          subst hpe; exact (List.suffix_append ops r).trans (suffix_tail hq)
        by_cases hc : isCtl t = true
        · exact lock_ctl hr hc1 h12.symm hs hs hc (fun _ => .inr ⟨rfl, hsuf⟩) (fun _ => .inr ⟨rfl, hsuf⟩)
            (fun l _ => hlab l)
        · refine lock_data he hr hc1 h12.symm hs hs (by simpa using hc) (fun hm => hcol ?_) (fun _ _ => .inr ⟨rfl, hsuf⟩)
          subst hpe
          have : Codew.byteStr "PRINT_COLOR" ∈ post := hq.mem (by simp [hm])
          simp [this]
    | .byte _ :: p, h12, hq => exact sim_wrong (by simp [step, hc1])
    | .byteStr _ :: p, h12, hq => exact sim_wrong (by simp [step, hc1])
    | .word _ :: p, h12, hq => exact sim_wrong (by simp [step, hc1])
    | .wordStr _ :: p, h12, hq => exact sim_wrong (by simp [step, hc1])
    | .varn _ _ :: p, h12, hq => exact sim_wrong (by simp [step, hc1])
    | .fp _ :: p, h12, hq => exact sim_wrong (by simp [step, hc1])
    | .str _ :: p, h12, hq => exact sim_wrong (by simp [step, hc1])

/-- The window theorem. -/
theorem window {pre L R post : List Codew}
    (hh : ∃ t L', L = .tok t :: L') (hL : NoLabel L) (hR : NoLabel R)
    (hcol : Codew.byteStr "PRINT_COLOR" ∉ pre ++ (L ++ post))
    (hwin : ∀ env, EnvOK env → ∀ c1 c2, CR (WS pre L R post) c1 c2 → c1.code = L ++ post → c2.code = R ++ post →
      SimStep env (pre ++ (L ++ post)) (pre ++ (R ++ post)) (CR (WS pre L R post)) c1 c2) :
    Refines (pre ++ (L ++ post)) (pre ++ (R ++ post)) := by
  intro env he m hs
  refine sim_behaves (R := CR (WS pre L R post)) he (fun c1 c2 h => h.d.out) (window_lock he hh hL hR hcol (hwin env he)) ?_ hs
  exact ⟨.inl ⟨pre, List.suffix_refl _, rfl, rfl⟩, .nil, LessDef.refl _, rfl⟩

/-! ## Straight-line windows -/

/-- An instruction: a token with its operands. -/
abbrev Instr := Tok × List Codew

/-- Number of operands of a token with fixed format. -/
def arityB (t : Tok) : Option Nat := match t with
  | .other _ => none
  | t => some (if takesOp t then 1 else 0)

theorem arityB_eq {t n} (h : arityB t = some n) (env : Env) : arity env t = n := by
  cases t <;> simp_all [arityB, arity]

def asmI (i : Instr) : List Codew := .tok i.1 :: i.2
/-- The code of a list of instructions. -/
def asm (I : List Instr) : List Codew := I.flatMap asmI

def execI (env : Env) : List Instr → D → Option D
  | [], d => some d
  | (t, ops) :: I, d => (sem env t ops d).bind (execI env I)

/-- Well-formed data instruction. -/
def Instr.ok (i : Instr) : Bool := (arityB i.1 == some i.2.length) && i.2.all (·.isData) && !isCtl i.1

theorem step_instr {env : Env} {P : List Codew} {i : Instr} (h : i.ok = true) (k rets d) :
    step env P ⟨asmI i ++ k, rets, d⟩ = match sem env i.1 i.2 d with
      | some d' => .run ⟨k, rets, d'⟩
      | none => .wrong := by
  simp only [Instr.ok, Bool.and_eq_true, beq_iff_eq, Bool.not_eq_true'] at h
  have hs := splitOps_of (ops := i.2) (by simpa [List.all_eq_true] using h.1.2) k
  simp only [step, asmI, List.cons_append, arityB_eq h.1.1 env, hs, h.2]
  cases sem env i.1 i.2 d <;> rfl

theorem exec_run {env : Env} {P : List Codew} : ∀ {I : List Instr} {d d'}, (I.all Instr.ok = true) →
    execI env I d = some d' → ∀ k rets, runN env P I.length ⟨asm I ++ k, rets, d⟩ = .run ⟨k, rets, d'⟩
  | [], d, d', _, h, k, rets => by simp only [execI, Option.some.injEq] at h; simp [runN, asm, h]
  | i :: I, d, d', ho, h, k, rets => by
    simp only [List.all_cons, Bool.and_eq_true] at ho
    cases hs : sem env i.1 i.2 d with
    | none => simp [execI, hs] at h
    | some d1 =>
      simp only [execI, hs, Option.bind_some] at h
      have := step_instr (env := env) (P := P) ho.1 (asm I ++ k) rets d
      rw [hs] at this
      have e : asm (i :: I) ++ k = asmI i ++ (asm I ++ k) := by simp [asm]
      rw [List.length_cons, e, runN_succ_of_step this]
      exact exec_run ho.2 h k rets

theorem exec_wrong {env : Env} {P : List Codew} : ∀ {I : List Instr} {d}, (I.all Instr.ok = true) →
    execI env I d = none → ∀ k rets, runN env P I.length ⟨asm I ++ k, rets, d⟩ = .wrong
  | [], d, _, h, k, rets => by simp [execI] at h
  | i :: I, d, ho, h, k, rets => by
    simp only [List.all_cons, Bool.and_eq_true] at ho
    have e : asm (i :: I) ++ k = asmI i ++ (asm I ++ k) := by simp [asm]
    cases hs : sem env i.1 i.2 d with
    | none =>
      have := step_instr (env := env) (P := P) ho.1 (asm I ++ k) rets d
      rw [hs] at this
      rw [e, List.length_cons]; simp only [runN, this]
    | some d1 =>
      simp only [execI, hs, Option.bind_some] at h
      have := step_instr (env := env) (P := P) ho.1 (asm I ++ k) rets d
      rw [hs] at this
      rw [List.length_cons, e, runN_succ_of_step this]
      exact exec_wrong ho.2 h k rets

theorem exec_color {env : Env} (he : EnvOK env) : ∀ {I : List Instr} {d d'}, 
    execI env I d = some d' → (Codew.byteStr "PRINT_COLOR" ∉ asm I) → d'.color = d.color
  | [], d, d', h, _ => by simp only [execI, Option.some.injEq] at h; rw [h]
  | i :: I, d, d', h, hc => by
    cases hs : sem env i.1 i.2 d with
    | none => simp [execI, hs] at h
    | some d1 =>
      simp only [execI, hs, Option.bind_some] at h
      simp only [asm, List.flatMap_cons, List.mem_append, not_or, asmI, List.mem_cons] at hc
      rw [exec_color he h hc.2, sem_color he hs hc.1.2]

/-- The second sequence of instructions does at least what the first does. -/
def LocalOK (I J : List Instr) : Prop :=
  ∀ env, EnvOK env → ∀ d d', d.color = 0 → execI env I d = some d' → ∃ d'', execI env J d = some d'' ∧ LessDef d' d''

theorem execI_mono {env : Env} (he : EnvOK env) : ∀ {I : List Instr} {d1 d2}, LessDef d1 d2 →
    OptLess (execI env I d1) (execI env I d2)
  | [], d1, d2, h => OptLess_some h
  | (t, ops) :: I, d1, d2, h => OptLess_bind (sem_mono' he h) fun _ _ h' => execI_mono he h'

theorem LessDef.trans {a b c : D} (h1 : LessDef a b) (h2 : LessDef b c) : LessDef a c := by
  obtain ⟨a1, a2, a3, a4, a5, a6, a7⟩ := h1
  obtain ⟨b1, b2, b3, b4, b5, b6, b7⟩ := h2
  refine ⟨?_, ?_, a3.trans b3, a4.trans b4, a5.trans b5, a6.trans b6, a7.trans b7⟩
  · rcases a1 with h | h
    · exact .inl h
    · rw [h]; exact b1
  · rcases a2 with h | h
    · exact .inl h
    · rw [h]; exact b2

theorem NoLabel_asm {I : List Instr} (h : I.all Instr.ok = true) : NoLabel (asm I) := by
  intro a ha
  simp only [asm, List.mem_flatMap, asmI, List.mem_cons] at ha
  obtain ⟨i, hi, rfl | ha⟩ := ha
  · rfl
  · have := List.all_eq_true.1 h i hi
    simp only [Instr.ok, Bool.and_eq_true, List.all_eq_true] at this
    have := this.1.2 a ha
    simp [Codew.isData] at this; exact this.2

/-- Replacing a straight-line window. -/
theorem window_line {pre post : List Codew} {I J : List Instr} (hI : I ≠ []) (hIok : I.all Instr.ok = true)
    (hJok : J.all Instr.ok = true) (hcol : Codew.byteStr "PRINT_COLOR" ∉ pre ++ (asm I ++ post)) 
    (hl : LocalOK I J) :
    Refines (pre ++ (asm I ++ post)) (pre ++ (asm J ++ post)) := by
  obtain ⟨i0, I0, rfl⟩ : ∃ i I', I = i :: I' := by cases I <;> simp_all
  refine window ⟨i0.1, i0.2 ++ asm I0, by simp [asm, asmI]⟩ (NoLabel_asm hIok) (NoLabel_asm hJok) hcol ?_
  rintro env he ⟨k1, r1, d1⟩ ⟨k2, r2, d2⟩ hr rfl rfl
  cases hx : execI env (i0 :: I0) d1 with
  | none => exact .inl ⟨_, exec_wrong hIok hx _ _⟩
  | some d1' =>
    obtain ⟨d1'', hx1, hl1⟩ := hl env he d1 d1' hr.color hx
    obtain ⟨d2', hx2, hl2⟩ := execI_mono he hr.d d1'' hx1
    refine .inr (.inr ⟨I0.length, J.length, ⟨post, r1, d1'⟩, ⟨post, r2, d2'⟩, exec_run hIok hx post r1, exec_run hJok hx2 post r2, ?_, ?_⟩)
    · refine ⟨.inr ⟨rfl, List.suffix_refl _⟩, hr.rets, hl1.trans hl2, ?_⟩
      show d1'.color = 0
      rw [exec_color he hx (fun hm => hcol (by simp [hm]))]; exact hr.color
    · right; simp [asm, asmI]; omega

end FB
