import Verif.Eng.JDef
/-!
# The jumps in the native compiler: definition and use of labels

`E_LABEL_DEF`, and `E_DO_EXEC` with the end of `E_LABEL` (`actions.asm:502-575`).
-/
namespace FB.Eng
open FB.Rt
open FB.Native (NS Ent LAd put wbytes ltNum)

section
variable (err lerr : B) (rest : Code)
local notation "P" => jmpCode err lerr rest
variable {p : JPar} {n : NS} {m : M} {k : Code} {st : List Slot}

/-- The routine refuses the program: an error message, no memory, or a return with the carry set. -/
def Refuses (c : Code) (m : M) (k : Code) (st : List Slot) : Prop :=
  Errs err lerr rest c m ∨ Fails P c m ∨ ∃ m', Reach P c m k m' ∧ m'.c = true ∧ m'.stk = st

/-- The new state fits: the line of code has less than 256 bytes, and a new entry in the list of addresses is below `MEMTOP`. -/
def Fits (p : JPar) (n n' : NS) : Prop := n'.cp < p.prog + 256 ∧ (n'.lab.length = n.lab.length ∨ p.lbuf + 4 * n'.lab.length < p.top)

/-- The routine at `c` obeys `r`: it takes the memory to the new state and returns with the carry clear, if the new state fits; or it refuses. -/
def Obeys (p : JPar) (n : NS) (r : Option NS) (c : Code) (m : M) (k : Code) (st : List Slot) : Prop :=
  match r with
  | none => Refuses err lerr rest c m k st
  | some n' => (Fits p n n' → ∃ m', Reach P c m k m' ∧ Done p n' m m' st ∧ m'.c = false) ∧ (¬ Fits p n n' → Refuses err lerr rest c m k st)

variable {err lerr rest} in
theorem Refuses.pre {c0 c : Code} {m0 m : M} (h0 : Reach P c0 m0 c m) (h : Refuses err lerr rest c m k st) : Refuses err lerr rest c0 m0 k st := by
  rcases h with h | h | ⟨m', r, x⟩
  · exact .inl (h0.errs h)
  · exact .inr (.inl (h0.fails h))
  · exact .inr (.inr ⟨m', h0.trans r, x⟩)

variable {err lerr rest} in
/-- The routines on loops, that do not change the list of addresses. -/
theorem Does.obeys {r : Option NS} {c : Code} {X : M → Prop} (h : Does err lerr rest p r c m k st X) (hl : ∀ n', r = some n' → n'.lab = n.lab) : Obeys err lerr rest p n r c m k st := by
  unfold Does at h
  unfold Obeys
  cases r with
  | none => exact .inl h
  | some n' =>
    simp only at h ⊢
    constructor
    · intro hf
      rw [if_pos hf.1] at h
      obtain ⟨m', a, b, c, _⟩ := h
      exact ⟨m', a, b, c⟩
    · intro hf
      rw [if_neg (fun hc => hf ⟨hc, .inl (by rw [hl n' rfl])⟩)] at h
      exact .inl h

variable {err lerr rest} in
theorem Does.fit {n' : NS} {c : Code} {X : M → Prop} (h : Does err lerr rest p (some n') c m k st X) (hc : n'.cp < p.prog + 256) : ∃ m', Reach P c m k m' ∧ Done p n' m m' st ∧ m'.c = false := by
  unfold Does at h
  simp only [if_pos hc] at h
  obtain ⟨m', a, b, c, _⟩ := h
  exact ⟨m', a, b, c⟩

theorem defLoop_keep {r num : Nat} : ∀ {l l' : List LAd} {n n' : NS}, NS.defLoop r num l n = some (l', n') → l'.length = l.length ∧ n'.cp = n.cp ∧ n'.last = n.last ∧ n'.lab = n.lab := by
  intro l
  induction l with
  | nil => intro l' n n' h; simp only [NS.defLoop, Option.some.injEq, Prod.mk.injEq] at h; rw [← h.1, ← h.2]; exact ⟨rfl, rfl, rfl, rfl⟩
  | cons e es ih =>
    intro l' n n' h
    unfold NS.defLoop at h
    split at h
    · split at h
      · cases h
      · split at h
        · cases h
        · rename_i hd
          simp only [Option.some.injEq, Prod.mk.injEq] at h
          obtain ⟨a, b, c, d⟩ := ih hd
          rw [← h.1, ← h.2]
          exact ⟨by simp [a], b, c, d⟩
    · split at h
      · cases h
      · rename_i hd
        simp only [Option.some.injEq, Prod.mk.injEq] at h
        obtain ⟨a, b, c, d⟩ := ih hd
        rw [← h.1, ← h.2]
        exact ⟨by simp [a], b, c, d⟩

/-- A new value in `laddr_search_num`. -/
theorem JRep.srch {v : JV} (h : JRep p n v) (x : B) : JRep p n { v with ram := upd v.ram 0xB4 x } ∧ Fr p v { v with ram := upd v.ram 0xB4 x } := by
  have hlow := h.low; have hb := h.below; have hbl := h.base_le; have hle := h.lptr_le
  have e : ∀ i, memStart + BitVec.ofNat 16 i = BitVec.ofNat 16 (0xA2 + i) := by intro i; rw [BitVec.ofNat_add]; rfl
  have ne : ∀ a, a < 65536 → a ≠ 0xB4 → upd v.ram 0xB4 x (BitVec.ofNat 16 a) = v.ram (BitVec.ofNat 16 a) := fun a h1 h2 => upd_ne (wne (b := 0xB4) h1 (by omega) h2)
  have p4 : ptr (upd v.ram 0xB4 x) 4 = ptr v.ram 4 := by
    apply toNat_ptr_eq
    · rw [e, ne _ (by omega) (by omega)]
    · rw [e, ne _ (by omega) (by omega)]
  exact h.relab (l := n.lab) (fun a h1 _ _ _ _ => upd_ne h1) (by rw [p4]; exact h.lptr) (by rw [p4, h.lptr]; exact h.fits)
    (h.lab.congr fun i h1 h2 => ne i (by omega) (by omega)) h.labs

/-- `laddr_search_start` (`actions.asm:466-472`). -/
theorem m_start (h : JRep p n m.jv) : ∃ m', Reach P (jmpCode.laddr_search_start err lerr rest) m (jmpCode.nl_comp err lerr rest) m' ∧ JRep p n m'.jv ∧ Fr p m.jv m'.jv ∧ m'.stk = m.stk ∧
    m'.ram 0xB4 = m.x ∧ M.at1 m' = BitVec.ofNat 16 p.lbuf := by
  have hlow := h.low; have hb := h.below; have hbl := h.base_le; have hle := h.lptr_le
  have hl := h.lbuf
  have hl' : (word (m.ram 0xA8) (m.ram 0xA9)).toNat = p.lbuf := hl
  obtain ⟨m', r, v, a⟩ := s_start err lerr rest (m := m) (by
    intro h0
    rw [word_toNat, h0] at hl'
    have := (m.ram 0xA8).isLt
    simp at hl'; omega)
  obtain ⟨h1, h2⟩ := h.srch m.x
  refine ⟨m', r, by rw [v]; exact h1, by rw [v]; exact h2, congrArg JV.stk v, ?_, ?_⟩
  · rw [show m'.ram = _ from congrArg JV.ram v]; simp [upd]
  · rw [a]; apply BitVec.eq_of_toNat_eq; rw [hl', w16 (by omega)]

/-- After a search in `E_LABEL`. -/
theorem u_none {K : Code} (hK : K = .lb "lb_3" :: jmpCode.lb_3 err lerr rest ∨ K = .lb "lb_4" :: jmpCode.lb_4 err lerr rest) (hc : m.c = true) :
    Reach P K m (jmpCode.lb_nfound err lerr rest) m := by
  rcases hK with e | e
  · refine ⟨2, ?_⟩
    rw [e]
    rt_exec [jmpCode.lb_3.eq, hc]
  · refine ⟨3, ?_⟩
    rw [e]
    rt_exec [jmpCode.lb_4.eq, hc]

theorem u_some {K : Code} (hK : K = .lb "lb_3" :: jmpCode.lb_3 err lerr rest ∨ K = .lb "lb_4" :: jmpCode.lb_4 err lerr rest) (hc : m.c = false) :
    Reach P K m (jmpCode.lb_cloop err lerr rest) m := by
  rcases hK with e | e
  · refine ⟨3, ?_⟩
    rw [e]
    rt_exec [jmpCode.lb_3.eq, hc]
  · refine ⟨2, ?_⟩
    rw [e]
    rt_exec [jmpCode.lb_4.eq, hc]

/-- The loop of `E_LABEL` (`actions.asm:556-567`), from the comparison of an entry of the list. -/
theorem u_loop (l : List LAd) : ∀ (done : List LAd) (m : M) (K : Code), (K = .lb "lb_3" :: jmpCode.lb_3 err lerr rest ∨ K = .lb "lb_4" :: jmpCode.lb_4 err lerr rest) →
    m.stk = .ret K :: .ret k :: st → n.lab = done ++ l → JRep p n m.jv → M.at1 m = BitVec.ofNat 16 (p.lbuf + 4 * done.length) →
    ∃ m', m'.jv = { m.jv with stk := .ret k :: st } ∧
    match l.find? (fun e => e.num = (m.ram 0xB4).toNat && e.st ≥ 128) with
    | some e => Reach P (jmpCode.nl_comp err lerr rest) m (jmpCode.emit_addr err lerr rest) m' ∧ m'.c = false ∧ word m'.a m'.x = BitVec.ofNat 16 e.pos
    | none => Reach P (jmpCode.nl_comp err lerr rest) m (jmpCode.lb_nfound err lerr rest) m' := by
  induction l with
  | nil =>
    intro done m K hK hs hl h ha
    have hle := h.lptr_le
    have e := h.lap
    rw [hl, List.append_nil] at e hle
    obtain ⟨m1, r1, v1, c1⟩ := s_end err lerr rest hs (by rw [e, ha, w16 (by omega)])
    exact ⟨m1, v1, r1.trans (u_none err lerr rest hK c1)⟩
  | cons e es ih =>
    intro done m K hK hs hlab h ha
    have hle := h.lptr_le
    have hl := h.lap
    have hla := h.lab
    have hbl := h.below; have hlow := h.low; have hb := h.base_le; have htop := h.topOk; have hpl := h.prog_lt
    rw [hlab] at hle hl hla
    simp only [List.length_append, List.length_cons] at hle hl
    rw [LabsAt.append] at hla
    obtain ⟨l0, b0, b1, b2, b3, l1⟩ := hla
    have hok := h.labs e (by rw [hlab]; exact List.mem_append_right _ List.mem_cons_self)
    generalize hq : p.lbuf + 4 * done.length = q at *
    have eq : m.ram (BitVec.ofNat 16 q) = m.ram 0xB4 ↔ e.num = (m.ram 0xB4).toNat := by
      rw [show m.ram (BitVec.ofNat 16 q) = _ from b0]
      constructor
      · intro x; have hx := congrArg BitVec.toNat x; have := hok.num; rw [BitVec.toNat_ofNat] at hx; omega
      · intro x; rw [x]; simp
    by_cases hn : e.num = (m.ram 0xB4).toNat
    · obtain ⟨m1, r1, v1, t1, c1, n1, x1, a1⟩ := s_hit err lerr rest hs ha (by omega) (by omega) (eq.2 hn)
      have b1' : m.ram (BitVec.ofNat 16 (q + 1)) = _ := b1
      rw [b1', topBit_ofNat hok.st] at n1
      have r2 := u_some err lerr rest hK c1
      have s1 : m1.stk = .ret k :: st := congrArg JV.stk v1
      have g1 : m1.ram = m.ram := congrArg JV.ram v1
      by_cases hst : e.st ≥ 128
      · rw [decide_eq_true hst] at n1
        rw [List.find?_cons_of_pos (by simp [hn, hst])]
        refine ⟨m1, v1, r1.trans (r2.trans ⟨1, ?_⟩), c1, ?_⟩
        · rt_exec [jmpCode.lb_cloop.eq, n1]
        · show word m1.a m1.x = _
          rw [a1, x1, show m.ram (BitVec.ofNat 16 (q + 2)) = _ from b2, show m.ram (BitVec.ofNat 16 (q + 3)) = _ from b3]
          have := hok.hi
          exact word_pos (by omega)
      · rw [decide_eq_false hst] at n1
        rw [List.find?_cons_of_neg (by simp; omega)]
        let m2 : M := { m1 with n := false, stk := .ret (.lb "lb_4" :: jmpCode.lb_4 err lerr rest) :: .ret k :: st }
        have r3 : Reach P (jmpCode.lb_cloop err lerr rest) m1 (jmpCode.next_laddr err lerr rest) m2 := by
          refine ⟨2, ?_⟩
          rt_exec [jmpCode.lb_cloop.eq, n1, s1]
          rfl
        obtain ⟨m3, r4, v3, t3⟩ := s_next err lerr rest (m := m2) t1 (by omega) c1
        have v3' : m3.jv = { m.jv with stk := m2.stk } := by
          rw [v3]
          show ({ m1.jv with stk := m2.stk } : JV) = _
          rw [v1]
        obtain ⟨m', v', I⟩ := ih (done ++ [e]) m3 _ (.inr rfl) (congrArg JV.stk v3) (by rw [hlab, List.append_assoc]; rfl) (by rw [v3']; exact h.stk _) (by
          rw [t3, List.length_append, List.length_singleton]; congr 1; omega)
        rw [show m3.ram = m.ram from congrArg JV.ram v3'] at I
        refine ⟨m', by rw [v', v3'], ?_⟩
        have R := r1.trans (r2.trans (r3.trans r4))
        split at I
        · exact ⟨R.trans I.1, I.2⟩
        · exact R.trans I
    · rw [List.find?_cons_of_neg (by simp; intro x; exact absurd x hn)]
      obtain ⟨m1, r1, v1, t1⟩ := s_skip err lerr rest ha (by omega) (by omega) (fun x => hn (eq.1 x))
      obtain ⟨m', v', I⟩ := ih (done ++ [e]) m1 K hK ((congrArg JV.stk v1).trans hs) (by rw [hlab, List.append_assoc]; rfl) (by rw [v1]; exact h) (by
        rw [t1, List.length_append, List.length_singleton]; congr 1; omega)
      rw [show m1.ram = m.ram from congrArg JV.ram v1] at I
      refine ⟨m', by rw [v', v1], ?_⟩
      split at I
      · exact ⟨r1.trans I.1, I.2⟩
      · exact r1.trans I

end

section
variable (err lerr : B)
local notation "Q" => jmpCode err lerr memCode
variable {p : JPar} {n : NS} {m : M} {k : Code} {st : List Slot} (h : JRep p n m.jv) (hs : m.stk = .ret k :: st)
include h hs

/-- `E_LABEL_DEF` (`actions.asm:502-530`). -/
theorem m_labelDef : Obeys err lerr memCode p n (n.eLabelDef p.reloc) (jmpCode.E_LABEL_DEF err lerr memCode) m k st := by
  let m0 : M := { m with a := 1#8, z := false, n := false, stk := .ret (.lb "ld_1" :: jmpCode.ld_1 err lerr memCode) :: m.stk }
  have r0 : Reach Q (jmpCode.E_LABEL_DEF err lerr memCode) m (jmpCode.push_codep err lerr memCode) m0 := by
    refine ⟨2, ?_⟩
    rt_exec [jmpCode.E_LABEL_DEF.eq]
    rfl
  have D := m_push err lerr memCode (m := m0) (h.stk _) (k := .lb "ld_1" :: jmpCode.ld_1 err lerr memCode) (st := m.stk) rfl
  have e1 : ltNum .PROC_DATA = m0.a.toNat := rfl
  unfold NS.eLabelDef
  rw [e1]
  unfold Does at D
  cases hp : n.push m0.a.toNat with
  | none => rw [hp] at D; exact .inl (r0.errs D)
  | some n1 =>
    rw [hp] at D
    simp only at D ⊢
    have n1l : n1.lab = n.lab := by
      unfold NS.push at hp
      split at hp
      · cases hp
      · simp only [Option.some.injEq] at hp; rw [← hp]
    by_cases hc : n1.cp < p.prog + 256
    · rw [if_pos hc] at D
      obtain ⟨m1, r1, d1, c1, _⟩ := D
      let m2 : M := { m1 with x := m1.ram 176#16, z := decide (m1.ram 176#16 = 0#8), n := topBit (m1.ram 176#16), stk := .ret (.lb "ld_2" :: jmpCode.ld_2 err lerr memCode) :: .ret k :: st }
      have s1 : m1.stk = .ret k :: st := d1.stk.trans hs
      have r2 : Reach Q (.lb "ld_1" :: jmpCode.ld_1 err lerr memCode) m1 (jmpCode.laddr_search_start err lerr memCode) m2 := by
        refine ⟨3, ?_⟩
        rt_exec [jmpCode.ld_1.eq, s1]
        rfl
      obtain ⟨m3, r3, h3, f3, s3, b3, a3⟩ := m_start err lerr memCode (m := m2) (d1.rep.stk _)
      have last : (m3.ram 0xB4).toNat = n1.last := by rw [b3]; exact d1.rep.last
      have L := d_loop err lerr memCode (k := k) (st := st) n1.lab [] n1 m3 _ (.inl rfl) s3 h3 a3
      rw [last] at L
      have R := r0.trans (r1.trans (r2.trans r3))
      cases hd : NS.defLoop p.reloc n1.last n1.lab n1 with
      | none =>
        rw [hd] at L
        obtain ⟨m4, r4, x⟩ := L
        exact .inr (.inr ⟨m4, R.trans r4, x⟩)
      | some x =>
        obtain ⟨l', n'⟩ := x
        rw [hd] at L
        obtain ⟨m4, r4, d4, k4⟩ := L
        obtain ⟨kl, kc, kn, _⟩ := defLoop_keep hd
        simp only
        let m5 : M := { m4 with a := 128#8, z := false, n := true }
        have r5 : Reach Q (jmpCode.ld_nfound err lerr memCode) m4 (jmpCode.add_laddr_list err lerr memCode) m5 := by
          refine ⟨2, ?_⟩
          rt_exec [jmpCode.ld_nfound.eq]
          rfl
        have h5 : JRep p { n' with lab := l' } m5.jv := d4.rep
        have R' := R.trans (r4.trans r5)
        have fits : Fits p n { n' with lab := l' ++ [⟨n'.last, 128, n'.cp⟩] } ↔ p.lbuf + 4 * l'.length + 4 < p.top := by
          unfold Fits
          rw [n1l] at kl
          simp only [List.length_append, List.length_singleton, kl, kc]
          constructor
          · rintro ⟨_, a | a⟩ <;> omega
          · intro a; exact ⟨hc, .inr (by omega)⟩
        constructor
        · intro hf
          rw [fits] at hf
          obtain ⟨m6, r6, v6, c6, _, _, d6⟩ := m_add err lerr h5 d4.stk hf
          have e5 : (m5.ram 0xB4).toNat = n'.last := by show (m4.ram 0xB4).toNat = _; rw [k4, last, kn]
          have d6 := d6 (by
            have := h.base_le; have := h5.cp; simp only at this
            exact ⟨(m5.ram 0xB4).isLt, by show (128#8).toNat < 256; decide, by show p.base ≤ n'.cp; omega, by show n'.cp < _; omega, fun x => absurd x (by show ¬ 128 < 128; omega)⟩)
          refine ⟨m6, R'.trans r6, ⟨?_, ?_, d6.stk⟩, c6⟩
          · have := d6.rep
            rw [e5] at this
            exact this
          · have f1 : Fr p m.jv m0.jv := Fr.stk _
            have f2 : Fr p m1.jv m2.jv := Fr.stk _
            exact f1.trans (d1.fr.trans (f2.trans (f3.trans (d4.fr.trans d6.fr))))
        · intro hf
          rw [fits] at hf
          exact .inr (.inl (R'.fails (m_add_full err lerr h5 (by show p.top ≤ p.lbuf + 4 * l'.length + 4; omega))))
    · rw [if_neg hc] at D
      have R : Refuses err lerr memCode (jmpCode.E_LABEL_DEF err lerr memCode) m k st := .inl (r0.errs D)
      cases hd : NS.defLoop p.reloc n1.last n1.lab n1 with
      | none => exact R
      | some x =>
        obtain ⟨l', n'⟩ := x
        obtain ⟨kl, kc, kn, _⟩ := defLoop_keep hd
        exact ⟨fun hf => absurd hf.1 (by show ¬ n'.cp < _; omega), fun _ => R⟩

/-- The search and the address that `E_LABEL` and `E_DO_EXEC` emit (`actions.asm:556-575`), for the label in `X`. -/
theorem m_useLabel {num : Nat} (hx : m.x = BitVec.ofNat 8 num) (hnum : num < 256) :
    Obeys err lerr memCode p n (some (n.useLabel p.reloc num)) (jmpCode.start_searching err lerr memCode) m k st := by
  let m0 : M := { m with stk := .ret (.lb "lb_3" :: jmpCode.lb_3 err lerr memCode) :: m.stk }
  have r0 : Reach Q (jmpCode.start_searching err lerr memCode) m (jmpCode.laddr_search_start err lerr memCode) m0 := by
    refine ⟨1, ?_⟩
    rt_exec [jmpCode.start_searching.eq]
    rfl
  obtain ⟨m1, r1, h1, f1, s1, b1, a1⟩ := m_start err lerr memCode (m := m0) (h.stk _)
  have eb : (m1.ram 0xB4).toNat = num := by rw [b1]; show m.x.toNat = _; rw [hx, BitVec.toNat_ofNat]; omega
  obtain ⟨m2, v2, L⟩ := u_loop err lerr memCode (k := k) (st := st) n.lab [] m1 _ (.inl rfl) (s1.trans (by show _ :: m.stk = _; rw [hs])) rfl h1 a1
  rw [eb] at L
  have h2 : JRep p n m2.jv := by rw [v2]; exact h1.stk _
  have s2 : m2.stk = .ret k :: st := congrArg JV.stk v2
  have f2 : Fr p m.jv m2.jv := by
    have f0 : Fr p m.jv m0.jv := Fr.stk _
    refine f0.trans (f1.trans ?_)
    rw [v2]; exact Fr.stk _
  have hcp := h.cp; have hbl := h.base_le; have hpl := h.prog_lt; have hop := m.jv.op.isLt
  unfold NS.useLabel Obeys
  cases hf : n.lab.find? (fun e => decide (e.num = num) && decide (e.st ≥ 128)) with
  | some e =>
    rw [hf] at L
    obtain ⟨r2, c2, w2⟩ := L
    have hok := h.labs e (List.mem_of_find?_eq_some hf)
    have := hok.hi
    have D := m_addr err lerr memCode h2 s2 c2 (q := e.pos) (by rw [w2, BitVec.toNat_ofNat])
    have R := r0.trans (r1.trans r2)
    unfold Does at D
    simp only at D ⊢
    constructor
    · intro hfit
      rw [if_pos hfit.1] at D
      obtain ⟨m3, r3, d3, c3, _⟩ := D
      exact ⟨m3, R.trans r3, ⟨d3.rep, f2.trans d3.fr, d3.stk⟩, c3⟩
    · intro hfit
      rw [if_neg (fun hc => hfit ⟨hc, .inl rfl⟩)] at D
      exact .inl (R.errs D)
  | none =>
    rw [hf] at L
    simp only
    let m3 : M := { m2 with a := 0#8, z := true, n := false, stk := .ret (.lb "lb_5" :: jmpCode.lb_5 err lerr memCode) :: .ret k :: st }
    have r3 : Reach Q (jmpCode.lb_nfound err lerr memCode) m2 (jmpCode.add_laddr_list err lerr memCode) m3 := by
      refine ⟨2, ?_⟩
      rt_exec [jmpCode.lb_nfound.eq, s2]
      rfl
    have h3 : JRep p n m3.jv := h2.stk _
    have R := r0.trans (r1.trans (L.trans r3))
    have fits : Fits p n (NS.emitAddr p.reloc { n with lab := n.lab ++ [⟨num, 0, n.cp⟩] } (257 * (n.cp / 256))) ↔ n.cp + 2 < p.prog + 256 ∧ p.lbuf + 4 * n.lab.length + 4 < p.top := by
      unfold Fits
      rw [emitAddr_cp]
      show _ ∧ ((n.lab ++ [_]).length = _ ∨ _ + 4 * (n.lab ++ [_]).length < _) ↔ _
      simp only [List.length_append, List.length_singleton]
      constructor
      · rintro ⟨a, b | b⟩
        · omega
        · exact ⟨a, by omega⟩
      · rintro ⟨a, b⟩; exact ⟨a, .inr (by omega)⟩
    rw [fits]
    by_cases ht : p.lbuf + 4 * n.lab.length + 4 < p.top
    · obtain ⟨m4, r4, v4, c4, a4, x4, d4⟩ := m_add err lerr h3 rfl ht
      have r5 : Reach Q (.lb "lb_5" :: jmpCode.lb_5 err lerr memCode) m4 (jmpCode.emit_addr err lerr memCode) m4 := by
        refine ⟨2, ?_⟩
        rt_exec [jmpCode.lb_5.eq, c4]
      have R' := R.trans (r4.trans r5)
      by_cases hc : n.cp + 2 < p.prog + 256
      · have e3 : (m3.ram 0xB4).toNat = num := by
          show (m2.ram 0xB4).toNat = _
          rw [show m2.ram = m1.ram from congrArg JV.ram v2, eb]
        have d4 := d4 ⟨(m3.ram 0xB4).isLt, by show (0#8).toNat < 256; decide, by show p.base ≤ n.cp; omega, by show n.cp < _; omega, fun _ => hc⟩
        rw [e3] at d4
        have cpe : hi m3.jv.cp = BitVec.ofNat 8 (n.cp / 256) := by rw [h3.cp_eq, hi_ofNat _ (by omega)]
        have D := m_addr err lerr memCode d4.rep d4.stk c4 (q := 257 * (n.cp / 256)) (by
          rw [a4, x4, cpe, word_toNat, BitVec.toNat_ofNat, Nat.mod_eq_of_lt (a := n.cp / 256) (by omega), Nat.mod_eq_of_lt (by omega)]; omega)
        obtain ⟨m5, r6, d5, c5⟩ := D.fit hc
        refine ⟨fun _ => ⟨m5, R'.trans r6, ⟨d5.rep, ?_, d5.stk⟩, c5⟩, fun x => absurd ⟨hc, ht⟩ x⟩
        have f3 : Fr p m2.jv m3.jv := Fr.stk _
        exact f2.trans (f3.trans (d4.fr.trans d5.fr))
      · refine ⟨fun x => absurd x.1 hc, fun _ => .inl (R'.errs (j_addr_long err lerr memCode c4 ?_))⟩
        have : m4.zp.opos = m3.zp.opos := congrArg JV.op v4
        rw [this]
        exact (op_inc2 h3).2 (by omega)
    · exact ⟨fun x => absurd x.2 ht, fun _ => .inr (.inl (R.fails (m_add_full err lerr h3 (by omega))))⟩

/-- `E_DO_EXEC` (`actions.asm:549-575`). -/
theorem m_doExec : Obeys err lerr memCode p n (n.eDoExec p.reloc) (jmpCode.E_DO_EXEC err lerr memCode) m k st := by
  have hl := h.last
  let m0 : M := { m with x := m.ram 176#16, z := decide (m.ram 176#16 = 0#8), n := topBit (m.ram 176#16) }
  have r0 : Reach Q (jmpCode.E_DO_EXEC err lerr memCode) m (jmpCode.start_searching err lerr memCode) m0 := by
    refine ⟨2, ?_⟩
    rt_exec [jmpCode.E_DO_EXEC.eq]
    rfl
  have e : (m.ram 176#16).toNat = n.last := hl
  obtain ⟨a, b⟩ := m_useLabel err lerr (m := m0) h hs (num := n.last) (by show m.ram 176#16 = _; rw [← e]; simp) (by rw [← e]; exact (m.ram 176#16).isLt)
  refine ⟨fun hf => ?_, fun hf => (b hf).pre r0⟩
  obtain ⟨m', r, d, c⟩ := a hf
  exact ⟨m', r0.trans r, ⟨d.rep, d.fr, d.stk⟩, c⟩

end
end FB.Eng
