import Verif.Eng.JLab
/-!
# The jumps in the native compiler: labels

`add_laddr_list`, `E_LABEL_DEF`, `E_DO_EXEC` and the end of `E_LABEL` (`actions.asm:474-575`).
-/
namespace FB.Eng
open FB.Rt
open FB.Native (NS Ent LAd put wbytes ltNum)

theorem word_inj {l h l' h' : B} (e : (word l h).toNat = (word l' h').toNat) : l = l' ∧ h = h' := by
  rw [word_toNat, word_toNat] at e
  have := l.isLt; have := h.isLt; have := l'.isLt; have := h'.isLt
  constructor <;> (apply BitVec.eq_of_toNat_eq; omega)

theorem word_pos {a : Nat} (h : a < 65536) : word (BitVec.ofNat 8 a) (BitVec.ofNat 8 (a / 256)) = BitVec.ofNat 16 a := by
  apply BitVec.eq_of_toNat_eq
  rw [word_toNat, BitVec.toNat_ofNat, BitVec.toNat_ofNat, w16 h]; omega

section
variable {p : JPar} {n : NS} {v : JV}

/-- Memory changes only in the list of addresses. -/
theorem JRep.relab (h : JRep p n v) {r : W → B} {l : List LAd} (hr : ∀ a : W, a ≠ 0xB4 → a ≠ 0xAA → a ≠ 0xAB → a ≠ 0xAC → ¬ (p.lbuf ≤ a.toNat ∧ a.toNat < p.top) → r a = v.ram a)
    (hp : (ptr r 4).toNat = p.lbuf + 4 * l.length) (htop : (ptr r 4).toNat ≤ p.top) (hl : LabsAt r p.lbuf l) (he : ∀ e ∈ l, LabOk p e) :
    JRep p { n with lab := l } { v with ram := r } ∧ Fr p v { v with ram := r } := by
  have hlow := h.low; have hb := h.below; have hlt := h.prog_lt; have hbl := h.base_le
  have eq : ∀ a, a < 65536 → a ≠ 0xB4 → a ≠ 0xAA → a ≠ 0xAB → a ≠ 0xAC → ¬ (p.lbuf ≤ a ∧ a < p.top) → r (BitVec.ofNat 16 a) = v.ram (BitVec.ofNat 16 a) := by
    intro a h1 h2 h3 h4 h5 h6
    exact hr _ (wne (b := 0xB4) h1 (by omega) h2) (wne (b := 0xAA) h1 (by omega) h3) (wne (b := 0xAB) h1 (by omega) h4) (wne (b := 0xAC) h1 (by omega) h5) (by rw [w16 h1]; exact h6)
  have lo : ∀ a, a < p.lbuf → a < 65536 → a ≠ 0xB4 → a ≠ 0xAA → a ≠ 0xAB → a ≠ 0xAC → r (BitVec.ofNat 16 a) = v.ram (BitVec.ofNat 16 a) :=
    fun a h0 h1 h2 h3 h4 h5 => eq a h1 h2 h3 h4 h5 (by omega)
  have pt : ∀ j < 4, ptr r j = ptr v.ram j := by
    intro j hj
    have e : ∀ i, memStart + BitVec.ofNat 16 i = BitVec.ofNat 16 (0xA2 + i) := by intro i; rw [BitVec.ofNat_add]; rfl
    apply toNat_ptr_eq
    · rw [e, lo _ (by omega) (by omega) (by omega) (by omega) (by omega) (by omega)]
    · rw [e, lo _ (by omega) (by omega) (by omega) (by omega) (by omega) (by omega)]
  refine ⟨⟨h.low, h.base_le, h.prog, (pt 0 (by omega)).trans h.pptr, h.below, by show (ptr r 3).toNat = _; rw [pt 3 (by omega)]; exact h.lbuf, ?_, h.topOk, ?_, h.mins, ?_, h.cp, ?_, ?_, h.room, ?_, h.ents, ?_, hl, hp, he, hp ▸ htop⟩, ?_⟩
  · have e1 : r 0x2E5 = v.ram 0x2E5 := lo 0x2E5 (by omega) (by omega) (by omega) (by omega) (by omega) (by omega)
    have e2 : r 0x2E6 = v.ram 0x2E6 := lo 0x2E6 (by omega) (by omega) (by omega) (by omega) (by omega) (by omega)
    show (memTop r).toNat = _
    rw [← h.top, memTop, memTop, e1, e2]
  · have ht := h.topOk
    refine ⟨?_, ?_, ?_⟩
    · show 0x300 ≤ (ptr r 0).toNat; rw [pt 0 (by omega)]; exact h.ord.lo
    · intro i hi
      show (ptr r i).toNat ≤ (ptr r (i+1)).toNat
      rw [pt i hi]
      by_cases h4 : i + 1 < 4
      · rw [pt (i + 1) h4]; exact h.ord.mono i hi
      · have : i = 3 := by omega
        subst this
        rw [hp, h.lbuf]; omega
    · show (ptr r 4).toNat ≤ _; omega
  · have e1 : r 0xB1 = v.ram 0xB1 := lo 0xB1 (by omega) (by omega) (by omega) (by omega) (by omega) (by omega)
    have e2 : r 0xB2 = v.ram 0xB2 := lo 0xB2 (by omega) (by omega) (by omega) (by omega) (by omega) (by omega)
    show (Rt.word (r 0xB1) (r 0xB2)).toNat = _
    rw [e1, e2]; exact h.rel
  · intro a ha ha'
    show Knows _ (r _)
    rw [lo a (by omega) (by omega) (by omega) (by omega) (by omega) (by omega)]; exact h.mem a ha ha'
  · show (r 0xB3).toNat = _
    rw [show r 0xB3 = v.ram 0xB3 from lo 0xB3 (by omega) (by omega) (by omega) (by omega) (by omega) (by omega)]; exact h.sp
  · have := h.room
    exact h.loops.congr fun i hi => lo _ (by omega) (by omega) (by omega) (by omega) (by omega) (by omega)
  · show (r lastLabel).toNat = _
    rw [show r lastLabel = v.ram lastLabel from lo 0xB0 (by omega) (by omega) (by omega) (by omega) (by omega) (by omega)]; exact h.last
  · refine ⟨rfl, rfl, rfl, rfl, rfl, fun x hx => hr x ?_ ?_ ?_ ?_ ?_⟩
    · intro e; exact hx (by rw [e]; exact .inr (.inr (.inr (.inl rfl))))
    · intro e; exact hx (by rw [e]; exact .inr (.inr (.inr (.inr (.inr (.inl rfl))))))
    · intro e; exact hx (by rw [e]; exact .inr (.inr (.inr (.inr (.inr (.inr (.inl rfl)))))))
    · intro e; exact hx (by rw [e]; exact .inr (.inr (.inr (.inr (.inl rfl)))))
    · intro e; exact hx (.inr (.inr (.inr (.inr (.inr (.inr (.inr e)))))))

theorem LabsAt.append {r : W → B} : ∀ {l l' : List LAd} {a : Nat}, LabsAt r a (l ++ l') ↔ LabsAt r a l ∧ LabsAt r (a + 4 * l.length) l' := by
  intro l
  induction l with
  | nil => intro l' a; simp [LabsAt]
  | cons e es ih =>
    intro l' a
    simp only [List.cons_append, LabsAt, ih, List.length_cons, and_assoc]
    rw [show a + 4 + 4 * es.length = a + 4 * (es.length + 1) by omega]

end

section
variable (err lerr : B)
local notation "Q" => jmpCode err lerr memCode
variable {p : JPar} {n : NS} {m : M} {k : Code} {st : List Slot} (h : JRep p n m.jv) (hs : m.stk = .ret k :: st)
include h

/-- `add_laddr_list` without memory. -/
theorem m_add_full (hf : p.top ≤ p.lbuf + 4 * n.lab.length + 4) : Fails Q (jmpCode.add_laddr_list err lerr memCode) m := by
  let m0 : M := { m with a := 4#8, z := false, n := false, zp := { m.zp with tmp2 := m.ram 170#16, tmp2h := m.ram 171#16 }, stk := .ret (.lb "al_1" :: jmpCode.al_1 err lerr memCode) :: .byte m.a :: m.stk }
  have hl := h.lptr
  have ht := h.top
  have f := alloc_laddr_full err lerr m0 h.ord.hi (by
    show (memTop m.jv.ram).toNat ≤ (ptr m.jv.ram 4).toNat + 4
    rw [h.top, h.lptr]; omega)
  refine Reach.fails (P := Q) (k' := memCode.alloc_laddr) (m' := m0) ⟨7, ?_⟩ f
  rt_exec [jmpCode.add_laddr_list.eq, mem_in err lerr _ _ memCode.alloc_laddr.find]
  rfl

include hs

/-- `add_laddr_list`. -/
theorem m_add (hf : p.lbuf + 4 * n.lab.length + 4 < p.top) : ∃ m', Reach Q (jmpCode.add_laddr_list err lerr memCode) m k m' ∧ m'.jv = { m.jv with stk := st, ram := m'.ram } ∧
    m'.c = false ∧ m'.a = hi m.jv.cp ∧ m'.x = hi m.jv.cp ∧
    (LabOk p ⟨(m.ram 0xB4).toNat, m.a.toNat, n.cp⟩ → Done p { n with lab := n.lab ++ [⟨(m.ram 0xB4).toNat, m.a.toNat, n.cp⟩] } m m' st) := by
  have hlow := h.low; have hb := h.below; have hlt := h.prog_lt; have hbl := h.base_le; have htop := h.topOk
  have hop := m.jv.op.isLt; have hcp := h.cp
  have hl := h.lptr
  have ht := h.top
  generalize hL : p.lbuf + 4 * n.lab.length = L at *
  let m0 : M := { m with a := 4#8, z := false, n := false, zp := { m.zp with tmp2 := m.ram 170#16, tmp2h := m.ram 171#16 }, stk := .ret (.lb "al_1" :: jmpCode.al_1 err lerr memCode) :: .byte m.a :: m.stk }
  have r0 : Reach Q (jmpCode.add_laddr_list err lerr memCode) m memCode.alloc_laddr m0 := by
    refine ⟨7, ?_⟩
    rt_exec [jmpCode.add_laddr_list.eq, mem_in err lerr _ _ memCode.alloc_laddr.find]
    rfl
  have p4 : ptr m.ram 4 = BitVec.ofNat 16 L := by
    apply BitVec.eq_of_toNat_eq; rw [w16 (by omega)]; exact hl
  obtain ⟨m1, r1, v1, t1, t2, g⟩ := alloc_laddr_in err lerr m0 rfl (by have := h.mins; exact this) h.ord (by
    show (ptr m.jv.ram 4).toNat + 4 < (memTop m.jv.ram).toNat
    rw [h.top, hl]; omega)
  have gr : Grown m.ram m1.ram 4 4 := g
  have w1 : word m1.zp.tmp2 m1.zp.tmp2h = BitVec.ofNat 16 L := by
    rw [t1, t2]; exact p4
  have same : ∀ a, a < 65536 → ¬ (0xA2 ≤ a ∧ a < 0xAC) → a ≠ 0xAC → m1.ram (BitVec.ofNat 16 a) = m.ram (BitVec.ofNat 16 a) := by
    intro a h1 h2 h3
    refine gr.rest _ ?_ ?_ ?_
    · intro b hb
      rw [show memStart + BitVec.ofNat 16 b = BitVec.ofNat 16 (0xA2 + b) by rw [BitVec.ofNat_add]; rfl]
      exact wne h1 (by omega) (by omega)
    · exact wne (b := 0xAC) h1 (by omega) h3
    · omega
  have s1 : m1.stk = .byte m.a :: .ret k :: st := by
    have : m1.stk = _ := congrArg JV.stk v1
    rw [this, hs]
  have b4 : m1.ram 180#16 = m.ram 180#16 := same 180 (by omega) (by omega) (by omega)
  have i0 : idx (word m1.zp.tmp2 m1.zp.tmp2h) 0#8 = BitVec.ofNat 16 L := by rw [w1]; simp [idx]
  have i1 : idx (word m1.zp.tmp2 m1.zp.tmp2h) 1#8 = BitVec.ofNat 16 (L + 1) := by rw [w1, BitVec.ofNat_add]; simp [idx]
  let m2 : M := { m1 with y := 1#8, a := m.a, z := false, n := false, ram := upd (upd m1.ram (BitVec.ofNat 16 L) (m.ram 180#16)) (BitVec.ofNat 16 (L + 1)) m.a,
                          stk := .ret (.lb "al_2" :: jmpCode.al_2 err lerr memCode) :: .ret k :: st }
  have r2 : Reach Q (.lb "al_1" :: jmpCode.al_1 err lerr memCode) m1 (jmpCode.get_codep err lerr memCode) m2 := by
    refine ⟨8, ?_⟩
    rt_exec [jmpCode.al_1.eq, s1, b4, i0, i1]
    rfl
  obtain ⟨m3, r3, z3, v3, c3, y3, f3⟩ := j_codep err lerr memCode (m := m2) rfl
  have zz : m2.jv.cp = m.jv.cp := by
    have : m2.jv = { m.jv with stk := m2.stk, ram := m2.ram } := by
      show ({ m1.jv with stk := m2.stk, ram := m2.ram } : JV) = _
      rw [v1]; rfl
    rw [this]; rfl
  rw [zz] at c3
  have e2 : m3.zp.tmp2 = m1.zp.tmp2 := by rw [z3]
  have e3 : m3.zp.tmp2h = m1.zp.tmp2h := by rw [z3]
  have a3 : m3.a = lo m.jv.cp := by rw [← c3, lo_word]
  have x3 : m3.x = hi m.jv.cp := by rw [← c3, hi_word]
  have q3 : m3.ram = m2.ram := congrArg JV.ram v3
  have s3 : m3.stk = .ret k :: st := congrArg JV.stk v3
  have i2 : idx (word m3.zp.tmp2 m3.zp.tmp2h) 2#8 = BitVec.ofNat 16 (L + 2) := by rw [e2, e3, w1, BitVec.ofNat_add]; simp [idx]
  have i3 : idx (word m3.zp.tmp2 m3.zp.tmp2h) 3#8 = BitVec.ofNat 16 (L + 3) := by rw [e2, e3, w1, BitVec.ofNat_add]; simp [idx]
  let m4 : M := { m3 with y := 2#8, a := m3.x, z := decide (m3.x = 0#8), n := topBit m3.x, ram := upd (upd m3.ram (BitVec.ofNat 16 (L + 3)) m3.a) (BitVec.ofNat 16 (L + 2)) m3.x, stk := st }
  have r4 : Reach Q (.lb "al_2" :: jmpCode.al_2 err lerr memCode) m3 k m4 := by
    refine ⟨7, ?_⟩
    rt_exec [jmpCode.al_2.eq, s3, i2, i3]
    rfl
  have v4 : m4.jv = { m.jv with stk := st, ram := m4.ram } := by
    show ({ m3.jv with stk := st, ram := m4.ram } : JV) = _
    rw [v3]
    show ({ m1.jv with stk := st, ram := m4.ram } : JV) = _
    rw [v1]; rfl
  refine ⟨m4, r0.trans (r1.trans (r2.trans (r3.trans r4))), v4, f3, x3, x3, ?_⟩
  intro hok
  have far : ∀ a, a < 65536 → ¬ (L ≤ a ∧ a < L + 4) → m4.ram (BitVec.ofNat 16 a) = m1.ram (BitVec.ofNat 16 a) := by
    intro a h1 h2
    show upd (upd m3.ram _ _) _ _ _ = _
    rw [upd_ne (wne h1 (by omega) (by omega)), upd_ne (wne h1 (by omega) (by omega)), q3]
    show upd (upd m1.ram _ _) _ _ _ = _
    rw [upd_ne (wne h1 (by omega) (by omega)), upd_ne (wne h1 (by omega) (by omega))]
  have e : ∀ i, memStart + BitVec.ofNat 16 i = BitVec.ofNat 16 (0xA2 + i) := by intro i; rw [BitVec.ofNat_add]; rfl
  have pt : ∀ j ≤ 4, ptr m4.ram j = ptr m1.ram j := by
    intro j hj
    apply toNat_ptr_eq
    · rw [e, far _ (by omega) (by omega)]
    · rw [e, far _ (by omega) (by omega)]
  have low8 : ∀ j < 4, m1.ram (BitVec.ofNat 16 (0xA2 + 2 * j)) = m.ram (BitVec.ofNat 16 (0xA2 + 2 * j)) ∧ m1.ram (BitVec.ofNat 16 (0xA2 + 2 * j + 1)) = m.ram (BitVec.ofNat 16 (0xA2 + 2 * j + 1)) := by
    intro j hj
    have := gr.ptrs j (by omega)
    rw [if_neg (by omega), Nat.add_zero] at this
    have := word_inj this
    rw [e, e] at this
    exact this
  have S := h.relab (r := m4.ram) (l := n.lab ++ [⟨(m.ram 0xB4).toNat, m.a.toNat, n.cp⟩]) ?_ ?_ ?_ ?_ ?_
  · refine ⟨?_, ?_, rfl⟩
    · rw [v4]; exact S.1.stk st
    · rw [v4]; exact S.2.trans (Fr.stk st)
  · intro a h1 h2 h3 h4 h5
    have ea : a = BitVec.ofNat 16 a.toNat := by simp
    have n1 : ∀ b, a ≠ BitVec.ofNat 16 b → a.toNat ≠ b := fun b hb e' => hb (by rw [ea, e'])
    have g1 := n1 0xAA h2; have g2 := n1 0xAB h3; have g3 := n1 0xAC h4
    rw [ea, far _ a.isLt (by omega)]
    by_cases hx : 0xA2 ≤ a.toNat ∧ a.toNat < 0xAC
    · have g4 := low8 ((a.toNat - 0xA2) / 2) (by omega)
      by_cases hpar : (a.toNat - 0xA2) % 2 = 0
      · rw [show 0xA2 + 2 * ((a.toNat - 0xA2) / 2) = a.toNat by omega] at g4
        exact g4.1
      · rw [show 0xA2 + 2 * ((a.toNat - 0xA2) / 2) + 1 = a.toNat by omega] at g4
        exact g4.2
    · exact same _ a.isLt (by omega) g3
  · rw [pt 4 (by omega), gr.ptrs 4 (by omega), p4, w16 (by omega), if_pos (by omega), List.length_append, List.length_singleton]; omega
  · rw [pt 4 (by omega), gr.ptrs 4 (by omega), p4, w16 (by omega), if_pos (by omega)]; omega
  · rw [LabsAt.append, hL]
    refine ⟨h.lab.congr fun i hi hi' => ?_, ?_, ?_, ?_, ?_, trivial⟩
    · rw [far _ (by omega) (by omega), same _ (by omega) (by omega) (by omega)]; rfl
    · show upd (upd m3.ram _ _) _ _ _ = _
      rw [upd_ne (wne (by omega) (by omega) (by omega)), upd_ne (wne (by omega) (by omega) (by omega)), q3]
      show upd (upd m1.ram _ _) _ _ _ = _
      rw [upd_ne (wne (by omega) (by omega) (by omega))]
      simp [upd]
    · show upd (upd m3.ram _ _) _ _ _ = _
      rw [upd_ne (wne (by omega) (by omega) (by omega)), upd_ne (wne (by omega) (by omega) (by omega)), q3]
      show upd (upd m1.ram _ _) _ _ _ = _
      simp [upd]
    · show upd (upd m3.ram _ _) _ _ _ = _
      rw [x3, h.cp_eq, hi_ofNat _ (by omega)]
      simp [upd]
    · show upd (upd m3.ram _ _) _ _ _ = _
      rw [upd_ne (wne (by omega) (by omega) (by omega)), a3, h.cp_eq, lo_ofNat]
      simp [upd]
  · intro e he
    rcases List.mem_append.1 he with he | he
    · exact h.labs e he
    · rw [List.mem_singleton.1 he]; exact hok

end
section
variable (err lerr : B) (rest : Code)
local notation "P" => jmpCode err lerr rest
variable {p : JPar} {n : NS} {m : M} {k : Code} {st : List Slot}

/-- The end of the list. -/
theorem JRep.lap (h : JRep p n m.jv) : (lap m.ram).toNat = p.lbuf + 4 * n.lab.length := h.lptr

/-- After a search in `E_LABEL_DEF`: nothing found. -/
theorem d_none {K : Code} (hK : K = .lb "ld_2" :: jmpCode.ld_2 err lerr rest ∨ K = .lb "ld_4" :: jmpCode.ld_4 err lerr rest) (hc : m.c = true) :
    Reach P K m (jmpCode.ld_nfound err lerr rest) m := by
  rcases hK with e | e
  · refine ⟨2, ?_⟩
    rw [e]
    rt_exec [jmpCode.ld_2.eq, hc]
  · refine ⟨3, ?_⟩
    rw [e]
    rt_exec [jmpCode.ld_4.eq, hc]

/-- After a search in `E_LABEL_DEF`: an entry found. -/
theorem d_some {K : Code} (hK : K = .lb "ld_2" :: jmpCode.ld_2 err lerr rest ∨ K = .lb "ld_4" :: jmpCode.ld_4 err lerr rest) (hc : m.c = false) :
    Reach P K m (jmpCode.ld_cloop err lerr rest) m := by
  rcases hK with e | e
  · refine ⟨3, ?_⟩
    rw [e]
    rt_exec [jmpCode.ld_2.eq, hc]
  · refine ⟨2, ?_⟩
    rw [e]
    rt_exec [jmpCode.ld_4.eq, hc]

/-- The loop of `E_LABEL_DEF` (`actions.asm:508-525`), from the comparison of an entry of the list. -/
theorem d_loop (l : List LAd) : ∀ (done : List LAd) (n : NS) (m : M) (K : Code), (K = .lb "ld_2" :: jmpCode.ld_2 err lerr rest ∨ K = .lb "ld_4" :: jmpCode.ld_4 err lerr rest) →
    m.stk = .ret K :: .ret k :: st → JRep p { n with lab := done ++ l } m.jv → M.at1 m = BitVec.ofNat 16 (p.lbuf + 4 * done.length) →
    match NS.defLoop p.reloc (m.ram 0xB4).toNat l n with
    | none => ∃ m', Reach P (jmpCode.nl_comp err lerr rest) m k m' ∧ m'.c = true ∧ m'.stk = st
    | some (l', n') => ∃ m', Reach P (jmpCode.nl_comp err lerr rest) m (jmpCode.ld_nfound err lerr rest) m' ∧ Done p { n' with lab := done ++ l' } m m' (.ret k :: st) ∧ m'.ram 0xB4 = m.ram 0xB4 := by
  induction l with
  | nil =>
    intro done n m K hK hs h ha
    unfold NS.defLoop
    have hle := h.lptr_le
    have e := h.lap
    simp only [List.append_nil] at e hle
    obtain ⟨m1, r1, v1, c1⟩ := s_end err lerr rest hs (by rw [e, ha, w16 (by omega)])
    refine ⟨m1, r1.trans (d_none err lerr rest hK c1), ⟨?_, ?_, ?_⟩, ?_⟩
    · rw [v1]; exact h.stk _
    · rw [v1]; exact Fr.stk _
    · exact congrArg JV.stk v1
    · exact congrFun (congrArg JV.ram v1) 0xB4
  | cons e es ih =>
    intro done n m K hK hs h ha
    have hle := h.lptr_le
    have hl := h.lap
    have hla := h.lab
    have hbl := h.below; have hlow := h.low; have hb := h.base_le; have htop := h.topOk
    have hord := h.fits
    simp only [List.length_append, List.length_cons] at hle hl hord
    rw [LabsAt.append] at hla
    obtain ⟨l0, b0, b1, b2, b3, l1⟩ := hla
    have hok := h.labs e (List.mem_append_right _ List.mem_cons_self)
    generalize hq : p.lbuf + 4 * done.length = q at *
    have eq : m.ram (BitVec.ofNat 16 q) = m.ram 0xB4 ↔ e.num = (m.ram 0xB4).toNat := by
      rw [show m.ram (BitVec.ofNat 16 q) = _ from b0]
      constructor
      · intro x; have hx := congrArg BitVec.toNat x; have := hok.num; rw [BitVec.toNat_ofNat] at hx; omega
      · intro x; rw [x]; simp
    unfold NS.defLoop
    by_cases hn : e.num = (m.ram 0xB4).toNat
    · rw [if_pos hn]
      obtain ⟨m1, r1, v1, t1, c1, n1, x1, a1⟩ := s_hit err lerr rest hs ha (by omega) (by omega) (eq.2 hn)
      have b1' : m.ram (BitVec.ofNat 16 (q + 1)) = _ := b1
      rw [b1', topBit_ofNat hok.st] at n1
      have r2 := d_some err lerr rest hK c1
      have s1 : m1.stk = .ret k :: st := congrArg JV.stk v1
      have g1 : m1.ram = m.ram := congrArg JV.ram v1
      by_cases hst : e.st ≥ 128
      · rw [if_pos hst]
        rw [decide_eq_true hst] at n1
        refine ⟨{ m1 with n := true, c := true, stk := st }, r1.trans (r2.trans ⟨4, ?_⟩), rfl, rfl⟩
        rt_exec [jmpCode.ld_cloop.eq, jmpCode.xit_label_err.eq, jmpCode.lb_xit.eq, n1, s1]
      · rw [if_neg hst]
        rw [decide_eq_false hst] at n1
        let m2 : M := { m1 with n := false, stk := .ret (.lb "ld_3" :: jmpCode.ld_3 err lerr rest) :: .ret k :: st }
        have r3 : Reach P (jmpCode.ld_cloop err lerr rest) m1 (jmpCode.patch_codep err lerr rest) m2 := by
          refine ⟨2, ?_⟩
          rt_exec [jmpCode.ld_cloop.eq, n1, s1]
          rfl
        have h2 : JRep p { n with lab := done ++ e :: es } m2.jv := by
          show JRep _ _ { m1.jv with stk := m2.stk }
          rw [v1]; exact h.stk _
        have hpos := hok.lo; have hpos' := hok.two (by omega)
        have hw : word m2.a m2.x = BitVec.ofNat 16 e.pos := by
          show word m1.a m1.x = _
          rw [a1, x1, show m.ram (BitVec.ofNat 16 (q + 2)) = _ from b2, show m.ram (BitVec.ofNat 16 (q + 3)) = _ from b3]
          exact word_pos (by omega)
        obtain ⟨m3, r4, d3, y3, c3, t3, k3⟩ := m_patch err lerr rest h2 (k := .lb "ld_3" :: jmpCode.ld_3 err lerr rest) (st := .ret k :: st) rfl hw hpos (by omega)
        have t3' : M.t1 m3 = BitVec.ofNat 16 q := by
          rw [M.t1, t3.1, t3.2]; exact t1
        have i1 : idx (word m3.zp.tmp1 m3.zp.tmp1h) 1#8 = BitVec.ofNat 16 (q + 1) := by
          rw [show word m3.zp.tmp1 m3.zp.tmp1h = _ from t3', BitVec.ofNat_add]; simp [idx]
        let m4 : M := { m3 with a := 1#8, y := 1#8, z := false, n := false, ram := upd m3.ram (BitVec.ofNat 16 (q + 1)) 1#8, stk := .ret (.lb "ld_4" :: jmpCode.ld_4 err lerr rest) :: .ret k :: st }
        have r5 : Reach P (.lb "ld_3" :: jmpCode.ld_3 err lerr rest) m3 (jmpCode.next_laddr err lerr rest) m4 := by
          refine ⟨4, ?_⟩
          rt_exec [jmpCode.ld_3.eq, y3, i1, d3.stk]
          rfl
        have S := d3.rep.relab (r := m4.ram) (l := done ++ { e with st := 1 } :: es) ?_ ?_ ?_ ?_ ?_
        rotate_left
        · intro a _ _ _ _ h5
          show upd m3.ram _ _ a = m3.ram a
          apply upd_ne
          intro e'
          rw [e', w16 (by omega)] at h5
          omega
        · have : ptr m4.ram 4 = ptr m3.ram 4 := by
            have e : ∀ i, memStart + BitVec.ofNat 16 i = BitVec.ofNat 16 (0xA2 + i) := by intro i; rw [BitVec.ofNat_add]; rfl
            apply toNat_ptr_eq
            · rw [e]; exact upd_ne (wne (by omega) (by omega) (by omega))
            · rw [e]; exact upd_ne (wne (by omega) (by omega) (by omega))
          rw [this]
          have := d3.rep.lptr
          simp only [List.length_append, List.length_cons]
          rw [show ptr m3.ram 4 = ptr m3.jv.ram 4 from rfl, this]
          show p.lbuf + 4 * (done ++ e :: es).length = _
          simp
        · have : ptr m4.ram 4 = ptr m3.ram 4 := by
            have e : ∀ i, memStart + BitVec.ofNat 16 i = BitVec.ofNat 16 (0xA2 + i) := by intro i; rw [BitVec.ofNat_add]; rfl
            apply toNat_ptr_eq
            · rw [e]; exact upd_ne (wne (by omega) (by omega) (by omega))
            · rw [e]; exact upd_ne (wne (by omega) (by omega) (by omega))
          rw [this]
          rw [show ptr m3.ram 4 = ptr m3.jv.ram 4 from rfl, d3.rep.lptr]
          exact d3.rep.fits
        · have hl3 := d3.rep.lab
          have hl3' : LabsAt m3.ram p.lbuf (done ++ e :: es) := hl3
          rw [LabsAt.append, hq] at hl3' ⊢
          obtain ⟨z0, z1, z2, z3, z4, z5⟩ := hl3'
          refine ⟨z0.congr fun i hi hi' => ?_, ?_, ?_, ?_, ?_, z5.congr fun i hi hi' => ?_⟩
          · exact upd_ne (wne (by omega) (by omega) (by omega))
          · exact (upd_ne (wne (by omega) (by omega) (by omega))).trans z1
          · show upd _ _ _ _ = _
            simp [upd]
          · exact (upd_ne (wne (by omega) (by omega) (by omega))).trans z3
          · exact (upd_ne (wne (by omega) (by omega) (by omega))).trans z4
          · exact upd_ne (wne (by omega) (by omega) (by omega))
        · intro x hx
          rcases List.mem_append.1 hx with hx | hx
          · exact h.labs x (List.mem_append_left _ hx)
          · rcases List.mem_cons.1 hx with hx | hx
            · rw [hx]; exact ⟨hok.num, Nat.lt_of_lt_of_le (by decide : 1 < 2) (by decide), hok.lo, hok.hi, fun _ => hpos'⟩
            · exact h.labs x (List.mem_append_right _ (List.mem_cons_of_mem _ hx))
        have t4 : M.t1 m4 = BitVec.ofNat 16 q := t3'
        obtain ⟨m5, r6, v5, t5⟩ := s_next err lerr rest t4 (by omega) c3
        have h5 : JRep p { n.patch p.reloc e.pos with lab := (done ++ [{ e with st := 1 }]) ++ es } m5.jv := by
          rw [v5, List.append_assoc]
          exact S.1.stk m4.stk
        have k5 : m5.ram 0xB4 = m.ram 0xB4 := by
          rw [show m5.ram = m4.ram from congrArg JV.ram v5]
          show upd m3.ram _ _ (BitVec.ofNat 16 0xB4) = _
          rw [upd_ne (wne (by omega) (by omega) (by omega))]
          show m3.ram 0xB4 = _
          rw [k3, ← g1]
        have I := ih (done ++ [{ e with st := 1 }]) (n.patch p.reloc e.pos) m5 _ (.inr rfl) (congrArg JV.stk v5) h5 (by
          rw [t5, List.length_append, List.length_singleton]; congr 1; omega)
        rw [k5] at I
        have R := r1.trans (r2.trans (r3.trans (r4.trans (r5.trans r6))))
        cases hd : NS.defLoop p.reloc (m.ram 0xB4).toNat es (n.patch p.reloc e.pos) with
        | none =>
          rw [hd] at I
          obtain ⟨m6, r7, x⟩ := I
          exact ⟨m6, R.trans r7, x⟩
        | some x =>
          obtain ⟨l', n'⟩ := x
          rw [hd] at I
          obtain ⟨m6, r7, d6, k6⟩ := I
          refine ⟨m6, R.trans r7, ⟨?_, ?_, d6.stk⟩, k6⟩
          · have := d6.rep
            rw [List.append_assoc] at this
            exact this
          · refine Fr.trans ?_ d6.fr
            rw [v5]
            have f1 : Fr p m.jv m2.jv := by
              show Fr p _ { m1.jv with stk := m2.stk }
              rw [v1]; exact Fr.stk _
            exact f1.trans (d3.fr.trans (S.2.trans (Fr.stk _)))
    · rw [if_neg hn]
      obtain ⟨m1, r1, v1, t1⟩ := s_skip err lerr rest ha (by omega) (by omega) (fun x => hn (eq.1 x))
      have g1 : m1.ram = m.ram := congrArg JV.ram v1
      have I := ih (done ++ [e]) n m1 K hK ((congrArg JV.stk v1).trans hs) (by rw [v1, List.append_assoc]; exact h) (by
        rw [t1, List.length_append, List.length_singleton]; congr 1; omega)
      rw [g1] at I
      cases hd : NS.defLoop p.reloc (m.ram 0xB4).toNat es n with
      | none =>
        rw [hd] at I
        obtain ⟨m6, r7, x⟩ := I
        exact ⟨m6, r1.trans r7, x⟩
      | some x =>
        obtain ⟨l', n'⟩ := x
        rw [hd] at I
        obtain ⟨m6, r7, d6, k6⟩ := I
        refine ⟨m6, r1.trans r7, ⟨?_, ?_, d6.stk⟩, k6⟩
        · have := d6.rep
          rw [List.append_assoc] at this
          exact this
        · have := d6.fr
          rw [v1] at this; exact this

end
end FB.Eng
