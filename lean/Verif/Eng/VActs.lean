import Verif.Eng.VOps
/-!
# Variables in the native compiler: the actions
-/
namespace FB.Eng
open FB.Rt

theorem NextIs.of {m m' : M} {w : Word} {n : Nat} (h : NextIs m w n) (hr : m'.ram = m.ram) (hb : m'.bp = m.bp) (hc : m'.zp.cix = m.zp.cix) : NextIs m' w n := by
  cases h with
  | name b N h => obtain ⟨h0, c, h1, h2⟩ := h; exact .name b N ⟨h0, c, h1, by rw [hr, hb, hc]; exact h2.text, by rw [hc]; exact h2.room⟩
  | dotted b N c h0 hd h2 => exact .dotted b N c h0 hd ⟨by rw [hr, hb, hc]; exact h2.text, by rw [hc]; exact h2.room⟩
  | none _ h => obtain ⟨c, h1, h2, h3, h4⟩ := h; exact .none n ⟨c, h1, h2, by rw [hr, hb, hc]; exact h3, by rw [hc]; exact h4⟩

/-- The tables do not depend on other memory. -/
theorem _root_.FB.Tables.congr {r r' : W → B} {base : Nat} {A : List (List B)} {vs ls : List Rt.Ent} (h : Tables r base A vs ls)
    (he : ∀ a : W, base ≤ a.toNat ∨ (0xA2 ≤ a.toNat ∧ a.toNat ≤ 0xAB) ∨ a.toNat = 0xAE ∨ a.toNat = 0xAF → r' a = r a) : Tables r' base A vs ls := by
  have hl := h.lays
  have hhi := hl.high
  refine ⟨⟨hl.five, hl.low, hl.high, ?_, ?_⟩, h.vars, h.labels, h.vok, h.lok, ?_, ?_⟩
  · intro j hj
    rw [← hl.ptrs j hj]
    unfold ptr
    have e : ∀ b < 10, (memStart + BitVec.ofNat 16 b).toNat = 162 + b := by intro b hb; simp; omega
    rw [he _ (.inr (.inl (by rw [e _ (by omega)]; omega))), he _ (.inr (.inl (by rw [e _ (by omega)]; omega)))]
  · intro i hi
    rw [he _ (.inl (by rw [BitVec.toNat_ofNat]; omega))]; exact hl.bytes i hi
  · rw [he varCount (.inr (.inr (.inl rfl)))]; exact h.vcount
  · rw [he lblCount (.inr (.inr (.inr rfl)))]; exact h.lcount

section
variable {base : Nat} {s : VS} {v : JV}

/-- Only the stack of variables changes. -/
theorem VRep.stack (h : VRep base s v) {l : List B} {r : W → B} (he : ∀ a : W, a.toNat ≠ 0xB5 → ¬ (0x480 ≤ a.toNat ∧ a.toNat < 0x500) → r a = v.ram a) (hl : l.length ≤ 128)
    (hn : (r varSp).toNat = l.length) (hv : ∀ (i : Nat) (hi : i < l.length), r (BitVec.ofNat 16 (0x480 + i)) = l.reverse[i]'(by simpa using hi)) {z : Zp} {stk : List Slot} (hz : SameC v.z z) :
    VRep base { s with stk := l } { v with ram := r, z := z, stk := stk } := by
  have hlo := h.low
  have mt : memTop r = memTop v.ram := by
    unfold memTop
    rw [he 0x2E5 (by decide) (by decide), he 0x2E6 (by decide) (by decide)]
  refine ⟨h.tabs.congr fun a ha => he a (by omega) (by omega), hlo, h.room, ?_, hz.mins.trans h.mins, ?_, ?_, h.op, hn, hl, hv⟩
  · show word z.prgp z.prgph = ptr r 0
    rw [hz.prgp, hz.prgph]
    have : ptr r 0 = ptr v.ram 0 := by
      unfold ptr
      rw [he _ (by decide) (by decide), he _ (by decide) (by decide)]
    rw [this]; exact h.pptr
  · show TopOk r
    unfold TopOk; rw [mt]; exact h.top
  · show _ ≤ (memTop r).toNat
    rw [mt]; exact h.fits

theorem VFr.stack {r : W → B} (he : ∀ a : W, a.toNat ≠ 0xB5 → ¬ (0x480 ≤ a.toNat ∧ a.toNat < 0x500) → r a = v.ram a) {z : Zp} {stk : List Slot} (hz : SameC v.z z) :
    VFr base v { v with ram := r, z := z, stk := stk } :=
  ⟨rfl, rfl, ⟨hz.inb, hz.inbh, hz.pptr, hz.pptrh⟩, fun a _ _ _ h4 h5 => he a h4 h5⟩

end

section
variable (err lerr : B)
local notation "Q" => jmpCode err lerr memCode
local notation "V" => natCode err lerr
variable {base : Nat} {s : VS} {m : M} {k : Code} {st : List Slot} {w : Word} {n : Nat}

theorem vs_same (hc : m.c = false) (ha : m.a - m.zp.tmp3 = 0#8) : ∃ m', Reach V (.lb "vs_2" :: varCode.vs_2 Q) m (varCode.emit_varn Q) m' ∧ m'.jv = m.jv ∧ m'.x = m.x := by
  refine ⟨?_, ⟨4, ?_⟩, ?_⟩
  rotate_left
  · rt_exec [varCode.vs_2.eq, hc, ha]
    rfl
  · exact ⟨rfl, rfl⟩

theorem vs_other (hc : m.c = false) (ha : ¬ m.a - m.zp.tmp3 = 0#8) (hs : m.stk = .ret k :: st) :
    ∃ m', Reach V (.lb "vs_2" :: varCode.vs_2 Q) m k m' ∧ m'.jv = { m.jv with stk := st } ∧ m'.c = true := by
  refine ⟨?_, ⟨8, ?_⟩, ?_⟩
  rotate_left
  · rt_exec [varCode.vs_2.eq, varCode.vs_nf.eq, varCode.vs_exit.eq, hc, ha, hs]
    rfl
  · exact ⟨rfl, rfl⟩

theorem vs_none (hc : m.c = true) (hs : m.stk = .ret k :: st) :
    ∃ m', Reach V (.lb "vs_2" :: varCode.vs_2 Q) m k m' ∧ m'.jv = { m.jv with stk := st } ∧ m'.c = true := by
  refine ⟨{ m with stk := st }, ⟨3, ?_⟩, rfl, hc⟩
  rt_exec [varCode.vs_2.eq, varCode.vs_exit.eq, hc, hs]

/-- From `vs_1`: the type is in `A`. -/
theorem v_use (h : VRep base s m.jv) (hs : m.stk = .ret k :: st) (hw : NextIs m w n) : Does47 err lerr base (s.use w m.a) n (varCode.vs_1 Q) m k st := by
  let m0 : M := { m with zp := { m.zp with tmp3 := m.a }, stk := .ret (.lb "vs_2" :: varCode.vs_2 Q) :: m.stk }
  have r0 : Reach V (varCode.vs_1 Q) m memCode.var_search m0 := by
    refine ⟨2, ?_⟩
    rt_exec [varCode.vs_1.eq, mem_in' err lerr _ _ memCode.var_search.find]
    rfl
  obtain ⟨m1, z, r1, v1, c1, x1, t1, F⟩ := v_search err lerr (m := m0) (k := .lb "vs_2" :: varCode.vs_2 Q) (st := m.stk) rfl h.tabs (hw.of rfl rfl rfl)
  have s1 : m1.stk = .ret k :: st := (congrArg JV.stk v1).trans hs
  have v1' : m1.jv = { m.jv with stk := m.stk, z := z } := v1
  have R1 : VRep base s m1.jv := by rw [v1']; exact h.move (j := s.op) (o := m.jv.op) c1 h.op
  have F1 : VFr base m.jv m1.jv := by rw [v1']; exact VFr.move base m.jv (o := m.jv.op) c1
  have bad : (∃ m', Reach V (.lb "vs_2" :: varCode.vs_2 Q) m1 k m' ∧ m'.jv = { m1.jv with stk := st } ∧ m'.c = true) → Does47 err lerr base (.fail s) n (varCode.vs_1 Q) m k st := by
    rintro ⟨m2, r2, v2, c2⟩
    refine ⟨m2, r0.trans (r1.trans r2), c2, congrArg JV.stk v2, ?_, ?_, ?_⟩
    · rw [v2]; exact R1.move (j := s.op) (o := m1.jv.op) (SameC.refl _) R1.op
    · rw [v2]; exact F1.trans h.low (VFr.move base m1.jv (o := m1.jv.op) (SameC.refl _))
    · show m2.jv.z.cix.toNat = _
      rw [v2]; exact x1
  unfold VS.use
  cases w with
  | name N =>
    obtain ⟨_, _, F⟩ := F
    simp only
    cases hl : lookup N s.vs with
    | none => rw [hl] at F; exact bad (vs_none err lerr F s1)
    | some p =>
      obtain ⟨i, t⟩ := p
      rw [hl] at F
      obtain ⟨cc, cx, ca⟩ := F
      have t3 : m1.zp.tmp3 = m.a := t1
      simp only
      by_cases ht : t = m.a
      · rw [if_pos ht]
        obtain ⟨m2, r2, v2, x2⟩ := vs_same err lerr (m := m1) cc (by rw [ca, t3, ht]; simp)
        have := v_varn err lerr (s := s) (base := base) (m := m2) (k := k) (st := st) (by rw [v2]; exact R1) ((congrArg JV.stk v2).trans s1)
        rw [x2, show m1.x = BitVec.ofNat 8 i from BitVec.eq_of_toNat_eq (by rw [cx, BitVec.toNat_ofNat]; have := m1.x.isLt; omega)] at this
        refine this.pre err lerr (n0 := n) (r0.trans (r1.trans r2)) h.low ?_ ?_
        · rw [v2]; exact F1
        · show m2.jv.z.cix.toNat = _
          rw [v2]; exact x1
      · rw [if_neg ht]
        exact bad (vs_other err lerr cc (by rw [ca, t3]; exact fun e => ht (sub_eq0.1 e)) s1)
  | dotted N => exact bad (vs_none err lerr F.2.2 s1)
  | none => exact bad (vs_none err lerr F.2 s1)

/-- `get_last_tok`. -/
theorem v_last (h : VRep base s m.jv) (hs : m.stk = .ret k :: st) (ho : 0 < s.op) :
    ∃ m', Reach V (jmpCode.get_last_tok err lerr memCode) m k m' ∧ VRep base s.back m'.jv ∧ m'.a = s.last ∧ m'.c = m.c ∧ m'.stk = st ∧ VFr base m.jv m'.jv ∧ m'.n = topBit s.last ∧ m'.ram = m.ram ∧
      m'.bp = m.bp ∧ m'.zp.cix = m.zp.cix := by
  obtain ⟨e1, e2⟩ := h.last_eq ho
  have key : ∃ m', Reach Q (jmpCode.get_last_tok err lerr memCode) m k m' ∧ m'.jv = { m.jv with op := m.jv.op - 1, stk := st } ∧ m'.a = m.ram (idx m.jv.prog (m.jv.op - 1)) ∧ m'.c = m.c ∧ m'.n = topBit m'.a := by
    refine ⟨?_, ⟨4, ?_⟩, ?_⟩
    rotate_left
    · rt_exec [jmpCode.get_last_tok.eq, hs]
      rfl
    · exact ⟨rfl, rfl, rfl, rfl⟩
  obtain ⟨m1, r1, v1, a1, c1, n1⟩ := key
  have a1' : m1.a = s.last := a1.trans e1
  refine ⟨m1, r1.more (jmp_in err lerr), ?_, a1', c1, congrArg JV.stk v1, ?_, by rw [n1, a1'], congrArg JV.ram v1, ?_, ?_⟩
  · rw [v1]; exact h.move (j := s.op - 1) (SameC.refl _) e2
  · rw [v1]; exact VFr.move base m.jv (SameC.refl _)
  · show word m1.jv.z.inb m1.jv.z.inbh = _
    rw [v1]; rfl
  · show m1.jv.z.cix = _
    rw [v1]; rfl

theorem v_SEARCH (h : VRep base s m.jv) (hs : m.stk = .ret k :: st) (hw : NextIs m w n) (ho : 0 < s.op) : Does47 err lerr base (s.back.use w s.last) n (varCode.E_VAR_SEARCH Q) m k st := by
  let m0 : M := { m with stk := .ret (.lb "vs_0" :: varCode.vs_0 Q) :: m.stk }
  have r0 : Reach V (varCode.E_VAR_SEARCH Q) m (jmpCode.get_last_tok err lerr memCode) m0 := by
    refine ⟨1, ?_⟩
    rt_exec [varCode.E_VAR_SEARCH.eq, jmp_in err lerr _ _ (jmpCode.get_last_tok.find ..)]
    rfl
  obtain ⟨m1, r1, R1, a1, c1, s1, F1, _, g1, b1, x1⟩ := v_last err lerr (m := m0) (k := .lb "vs_0" :: varCode.vs_0 Q) (st := m.stk) (h.move (j := s.op) (o := m.jv.op) (SameC.refl _) h.op) rfl ho
  have r2 : Reach V (.lb "vs_0" :: varCode.vs_0 Q) m1 (varCode.vs_1 Q) m1 := by
    refine ⟨2, ?_⟩
    rt_exec [varCode.vs_0.eq]
  have := v_use err lerr (m := m1) R1 (s1.trans hs) (hw.of g1 b1 x1)
  rw [a1] at this
  have := this.pre err lerr (n0 := 0) (r0.trans (r1.trans r2)) h.low ((VFr.move base m.jv (o := m.jv.op) (SameC.refl _)).trans h.low F1) (by rw [x1]; rfl)
  rw [Nat.zero_add] at this
  exact this

theorem v_WORD (h : VRep base s m.jv) (hs : m.stk = .ret k :: st) (hw : NextIs m w n) : Does47 err lerr base (s.use w 1) n (varCode.E_VAR_WORD Q) m k st := by
  let m0 : M := { m with a := 1, z := false, n := false }
  have r0 : Reach V (varCode.E_VAR_WORD Q) m (varCode.vs_1 Q) m0 := by
    refine ⟨2, ?_⟩
    rt_exec [varCode.E_VAR_WORD.eq]
    rfl
  have := (v_use err lerr (m := m0) (k := k) (st := st) h hs (hw.of rfl rfl rfl)).pre err lerr (n0 := 0) r0 h.low (VFr.refl _ _) rfl
  rw [Nat.zero_add] at this
  exact this

/-- `E_PUSH_VAR`. -/
theorem v_PUSH (h : VRep base s m.jv) (hs : m.stk = .ret k :: st) (hc : m.c = false) (ho : 0 < s.op) (hl : s.stk.length < 128) :
    Does47 err lerr base (.ok { s.back with stk := s.last :: s.stk }) 0 (jmpCode.E_PUSH_VAR err lerr memCode) m k st := by
  let m0 : M := { m with stk := .ret (.lb "pv_1" :: jmpCode.pv_1 err lerr memCode) :: m.stk }
  have r0 : Reach V (jmpCode.E_PUSH_VAR err lerr memCode) m (jmpCode.get_last_tok err lerr memCode) m0 := by
    refine ⟨1, ?_⟩
    rt_exec [jmpCode.E_PUSH_VAR.eq, jmp_in err lerr _ _ (jmpCode.get_last_tok.find ..)]
    rfl
  obtain ⟨m1, r1, R1, a1, c1, s1, F1, _, g1, b1, x1⟩ := v_last err lerr (m := m0) (k := .lb "pv_1" :: jmpCode.pv_1 err lerr memCode) (st := m.stk) (h.move (j := s.op) (o := m.jv.op) (SameC.refl _) h.op) rfl ho
  have s1' : m1.stk = .ret k :: st := s1.trans hs
  have hi : idx 0x480 (m1.ram varSp) = BitVec.ofNat 16 (0x480 + s.stk.length) := by
    rw [idx, show (m1.ram varSp).toNat = s.stk.length from R1.sp, BitVec.ofNat_add]; rfl
  have key : ∃ m', Reach V (.lb "pv_1" :: jmpCode.pv_1 err lerr memCode) m1 k m' ∧
      m'.jv = { m1.jv with stk := st, ram := upd (upd m1.ram (BitVec.ofNat 16 (0x480 + s.stk.length)) m1.a) varSp (upd m1.ram (BitVec.ofNat 16 (0x480 + s.stk.length)) m1.a varSp + 1#8) } ∧ m'.c = m1.c := by
    rw [← hi]
    refine ⟨?_, ⟨5, ?_⟩, ?_⟩
    rotate_left
    · rt_exec [jmpCode.pv_1.eq, s1']
      rfl
    · exact ⟨rfl, rfl⟩
  obtain ⟨m2, r2, v2, c2⟩ := key
  have hn : (BitVec.ofNat 16 (0x480 + s.stk.length)).toNat = 0x480 + s.stk.length := by rw [BitVec.toNat_ofNat]; omega
  have ne : ∀ a : W, a.toNat ≠ 0xB5 → a.toNat ≠ 0x480 + s.stk.length → upd (upd m1.ram (BitVec.ofNat 16 (0x480 + s.stk.length)) m1.a) varSp (upd m1.ram (BitVec.ofNat 16 (0x480 + s.stk.length)) m1.a varSp + 1#8) a = m1.ram a := by
    intro a h1 h2
    rw [upd_ne (fun e => h1 (by rw [e]; rfl)), upd_ne (fun e => h2 (by rw [e, hn]))]
  refine ⟨m2, r0.trans (r1.trans r2), by rw [c2, c1]; exact hc, congrArg JV.stk v2, ?_, ?_, ?_⟩
  · rw [v2]
    refine R1.stack (l := s.last :: s.stk) (fun a h1 h2 => ne a h1 (by omega)) (by simp; omega) ?_ ?_ (SameC.refl _)
    · rw [upd_at, upd_ne (by intro e; have := congrArg BitVec.toNat e; rw [hn, show varSp.toNat = 0xB5 from rfl] at this; omega), BitVec.toNat_add, show (m1.ram varSp).toNat = s.stk.length from R1.sp]
      simp; omega
    · intro i hi'
      simp only [List.length_cons] at hi'
      by_cases e : i = s.stk.length
      · subst e
        rw [upd_ne (by intro e; have := congrArg BitVec.toNat e; rw [hn, show varSp.toNat = 0xB5 from rfl] at this; omega), upd_at, a1]
        simp
      · rw [ne _ (by rw [BitVec.toNat_ofNat]; omega) (by rw [BitVec.toNat_ofNat]; omega)]
        have := R1.vst i (by show i < s.stk.length; omega)
        rw [show m1.ram = m1.jv.ram from rfl, this]
        simp only [List.reverse_cons]
        rw [List.getElem_append_left (by rw [List.length_reverse]; omega)]
        rfl
  · rw [v2]
    exact (VFr.move base m.jv (o := m.jv.op) (SameC.refl _)).trans h.low (F1.trans h.low (VFr.stack (fun a h1 h2 => ne a h1 (by omega)) (SameC.refl _)))
  · show m2.jv.z.cix.toNat = _
    rw [v2]; show m1.zp.cix.toNat = _; rw [x1]; rfl

/-- `E_POP_VAR`. -/
theorem v_POP (h : VRep base s m.jv) (hs : m.stk = .ret k :: st) (hc : m.c = false) (hl : s.stk ≠ []) :
    Does47 err lerr base (VS.emit { s with stk := s.stk.tail } (s.stk.headD 0)) 0 (jmpCode.E_POP_VAR err lerr memCode) m k st := by
  obtain ⟨b, l, hbl⟩ : ∃ b l, s.stk = b :: l := by
    cases hh : s.stk with
    | nil => exact absurd hh hl
    | cons b l => exact ⟨b, l, rfl⟩
  have hsp : (m.ram varSp).toNat = l.length + 1 := by rw [show (m.ram varSp).toNat = s.stk.length from h.sp, hbl]; rfl
  have hspl := h.spl
  rw [hbl, List.length_cons] at hspl
  have e1 : (m.ram varSp - 1#8).toNat = l.length := by
    rw [BitVec.toNat_sub, hsp]; simp; omega
  have hi : idx 0x480 (m.ram varSp - 1#8) = BitVec.ofNat 16 (0x480 + l.length) := by
    rw [idx, e1, BitVec.ofNat_add]; rfl
  have hv : upd m.ram varSp (m.ram varSp - 1#8) (BitVec.ofNat 16 (0x480 + l.length)) = b := by
    rw [upd_ne (by intro e; have := congrArg BitVec.toNat e; rw [BitVec.toNat_ofNat, show varSp.toNat = 0xB5 from rfl] at this; omega)]
    have := h.vst l.length (by rw [hbl]; simp)
    rw [show m.ram = m.jv.ram from rfl, this]
    simp [hbl]
  have key : ∃ m', Reach V (jmpCode.E_POP_VAR err lerr memCode) m (jmpCode.parser_emit_byte err lerr memCode) m' ∧ m'.jv = { m.jv with ram := upd m.ram varSp (m.ram varSp - 1#8) } ∧ m'.c = m.c ∧ m'.a = b := by
    rw [← hi] at hv
    refine ⟨?_, ⟨4, ?_⟩, ?_⟩
    rotate_left
    · rt_exec [jmpCode.E_POP_VAR.eq, jmp_in err lerr _ _ (jmpCode.parser_emit_byte.find ..), upd_at]
      rfl
    · exact ⟨rfl, rfl, hv⟩
  obtain ⟨m1, r1, v1, c1, a1⟩ := key
  have ne : ∀ a : W, a.toNat ≠ 0xB5 → upd m.ram varSp (m.ram varSp - 1#8) a = m.ram a := fun a h1 => upd_ne (fun e => h1 (by rw [e]; rfl))
  have R1 : VRep base { s with stk := l } m1.jv := by
    rw [v1]
    refine h.stack (l := l) (fun a h1 _ => ne a h1) (by omega) (by rw [upd_at, e1]) ?_ (SameC.refl _)
    intro i hi'
    rw [ne _ (by rw [BitVec.toNat_ofNat]; omega)]
    have := h.vst i (by rw [hbl]; simp; omega)
    rw [show m.ram = m.jv.ram from rfl, this]
    simp only [hbl, List.reverse_cons]
    rw [List.getElem_append_left (by rw [List.length_reverse]; omega)]
  have s1 : m1.stk = .ret k :: st := (congrArg JV.stk v1).trans hs
  have := (v_byte err lerr R1 s1 (c1.trans hc)).pre err lerr (n0 := 0) r1 h.low (by rw [v1]; exact VFr.stack (fun a h1 _ => ne a h1) (SameC.refl _)) (by show m1.jv.z.cix.toNat = _; rw [v1]; rfl)
  rw [a1] at this
  rw [hbl]
  exact this

end
end FB.Eng
