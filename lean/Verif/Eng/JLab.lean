import Verif.Eng.JExit
/-!
# The jumps in the native compiler: the search of labels

`laddr_search_start` and `next_laddr` (`actions.asm:439-472`) go over the list of addresses of labels.
-/
namespace FB.Eng
open FB.Rt
open FB.Native (NS Ent LAd put wbytes ltNum)

theorem cmp_word (l h l' h' : B) : addC h (~~~ h') (addC l (~~~ l') true) = decide ((word l' h').toNat ≤ (word l h).toNat) := by
  have := l.isLt; have := h.isLt; have := l'.isLt; have := h'.isLt
  rw [word_toNat, word_toNat]
  simp only [addC, BitVec.toNat_not, Bool.toNat_true]
  by_cases hl : l'.toNat ≤ l.toNat
  · rw [show decide (256 ≤ l.toNat + (2 ^ 8 - 1 - l'.toNat) + 1) = true by simp; omega]
    simp only [Bool.toNat_true, decide_eq_decide]; omega
  · rw [show decide (256 ≤ l.toNat + (2 ^ 8 - 1 - l'.toNat) + 1) = false by simp; omega]
    simp only [Bool.toNat_false, decide_eq_decide]; omega

theorem xor0 (a b : B) : a ^^^ b = 0#8 ↔ a = b := by
  constructor
  · intro h
    have := congrArg (· ^^^ b) h
    simpa [BitVec.xor_assoc] using this
  · intro h; rw [h, BitVec.xor_self]

section
variable (err lerr : B) (rest : Code)
local notation "P" => jmpCode err lerr rest
variable {m : M} {k : Code} {st : List Slot}

/-- `tmp1` as a word. -/
def M.t1 (m : M) : W := word m.zp.tmp1 m.zp.tmp1h

/-- The place of the search at `comp`: the low byte is in `A`. -/
def M.at1 (m : M) : W := word m.a m.zp.tmp1h

/-- Value of `laddr_ptr`. -/
def lap (r : W → B) : W := word (r 0xAA) (r 0xAB)

/-- `next_laddr`: on to the next entry. -/
theorem s_next {q : Nat} (hq : M.t1 m = BitVec.ofNat 16 q) (hlt : q + 4 < 65536) (hc : m.c = false) :
    ∃ m', Reach P (jmpCode.next_laddr err lerr rest) m (jmpCode.nl_comp err lerr rest) m' ∧ m'.jv = m.jv ∧ M.at1 m' = BitVec.ofNat 16 (q + 4) := by
  have e : m.zp.tmp1.toNat + 256 * m.zp.tmp1h.toNat = q := by
    have := congrArg BitVec.toNat hq
    rwa [M.t1, word_toNat, w16 (by omega)] at this
  have b1 := m.zp.tmp1.isLt; have b2 := m.zp.tmp1h.isLt
  cases hx : addC m.zp.tmp1 4#8 false with
  | false =>
    refine ⟨?_, ⟨3, ?_⟩, ?_⟩
    rotate_left
    · rt_exec [jmpCode.next_laddr.eq, hc, hx]
      rfl
    · refine ⟨rfl, ?_⟩
      have hx' := congrArg Bool.toNat hx
      simp only [addC] at hx'
      apply BitVec.eq_of_toNat_eq
      rw [M.at1, word_toNat, w16 hlt]
      simp [add8] at hx' ⊢
      omega
  | true =>
    refine ⟨?_, ⟨5, ?_⟩, ?_⟩
    rotate_left
    · rt_exec [jmpCode.next_laddr.eq, hc, hx]
      rfl
    · refine ⟨rfl, ?_⟩
      have hx' := congrArg Bool.toNat hx
      simp only [addC] at hx'
      apply BitVec.eq_of_toNat_eq
      rw [M.at1, word_toNat, w16 hlt]
      simp [add8] at hx' ⊢
      omega

/-- `comp` at the end of the list. -/
theorem s_end (hs : m.stk = .ret k :: st) (he : (lap m.ram).toNat ≤ (M.at1 m).toNat) : ∃ m', Reach P (jmpCode.nl_comp err lerr rest) m k m' ∧ m'.jv = { m.jv with stk := st } ∧ m'.c = true := by
  have hx : addC m.zp.tmp1h (~~~ m.ram 171#16) (addC m.a (~~~ m.ram 170#16) true) = true := by
    rw [cmp_word]; exact decide_eq_true he
  refine ⟨?_, ⟨6, ?_⟩, ?_⟩
  rotate_left
  · rt_exec [jmpCode.nl_comp.eq, jmpCode.nl_xit.eq, hx, hs]
    rfl
  · exact ⟨rfl, rfl⟩

/-- `comp` with an entry of another label. -/
theorem s_skip {q : Nat} (hq : M.at1 m = BitVec.ofNat 16 q) (hlt : q + 4 < 65536) (he : q < (lap m.ram).toNat) (hn : m.ram (BitVec.ofNat 16 q) ≠ m.ram 0xB4) :
    ∃ m', Reach P (jmpCode.nl_comp err lerr rest) m (jmpCode.nl_comp err lerr rest) m' ∧ m'.jv = m.jv ∧ M.at1 m' = BitVec.ofNat 16 (q + 4) := by
  have hx : addC m.zp.tmp1h (~~~ m.ram 171#16) (addC m.a (~~~ m.ram 170#16) true) = false := by
    rw [cmp_word]; apply decide_eq_false
    have : (word m.a m.zp.tmp1h).toNat = q := by rw [show word m.a m.zp.tmp1h = _ from hq, w16 (by omega)]
    show ¬ (lap m.ram).toNat ≤ _
    rw [this]; omega
  have i0 : idx (word m.a m.zp.tmp1h) 0#8 = BitVec.ofNat 16 q := by rw [show word m.a m.zp.tmp1h = _ from hq]; simp [idx]
  have hn' : ¬ m.ram (BitVec.ofNat 16 q) = m.ram 180#16 := hn
  have r0 : ∃ m0, Reach P (jmpCode.nl_comp err lerr rest) m (jmpCode.next_laddr err lerr rest) m0 ∧ m0.jv = m.jv ∧ M.t1 m0 = BitVec.ofNat 16 q ∧ m0.c = false := by
    refine ⟨?_, ⟨9, ?_⟩, ?_⟩
    rotate_left
    · rt_exec [jmpCode.nl_comp.eq, hx, i0, xor0, hn']
      rfl
    · exact ⟨rfl, hq, rfl⟩
  obtain ⟨m0, r0, v0, t0, c0⟩ := r0
  obtain ⟨m1, r1, v1, t1⟩ := s_next err lerr rest t0 hlt c0
  exact ⟨m1, r0.trans r1, v1.trans v0, t1⟩

/-- `comp` with an entry of the label. -/
theorem s_hit (hs : m.stk = .ret k :: st) {q : Nat} (hq : M.at1 m = BitVec.ofNat 16 q) (hlt : q + 4 < 65536) (he : q < (lap m.ram).toNat) (hn : m.ram (BitVec.ofNat 16 q) = m.ram 0xB4) :
    ∃ m', Reach P (jmpCode.nl_comp err lerr rest) m k m' ∧ m'.jv = { m.jv with stk := st } ∧ M.t1 m' = BitVec.ofNat 16 q ∧ m'.c = false ∧ m'.n = topBit (m.ram (BitVec.ofNat 16 (q + 1))) ∧
      m'.x = m.ram (BitVec.ofNat 16 (q + 2)) ∧ m'.a = m.ram (BitVec.ofNat 16 (q + 3)) := by
  have hx : addC m.zp.tmp1h (~~~ m.ram 171#16) (addC m.a (~~~ m.ram 170#16) true) = false := by
    rw [cmp_word]; apply decide_eq_false
    have : (word m.a m.zp.tmp1h).toNat = q := by rw [show word m.a m.zp.tmp1h = _ from hq, w16 (by omega)]
    show ¬ (lap m.ram).toNat ≤ _
    rw [this]; omega
  have hw : word m.a m.zp.tmp1h = BitVec.ofNat 16 q := hq
  have i0 : idx (word m.a m.zp.tmp1h) 0#8 = BitVec.ofNat 16 q := by rw [hw]; simp [idx]
  have i1 : idx (word m.a m.zp.tmp1h) 1#8 = BitVec.ofNat 16 (q + 1) := by rw [hw, BitVec.ofNat_add]; simp [idx]
  have i2 : idx (word m.a m.zp.tmp1h) 2#8 = BitVec.ofNat 16 (q + 2) := by rw [hw, BitVec.ofNat_add]; simp [idx]
  have i3 : idx (word m.a m.zp.tmp1h) 3#8 = BitVec.ofNat 16 (q + 3) := by rw [hw, BitVec.ofNat_add]; simp [idx]
  have hn' : m.ram (BitVec.ofNat 16 q) = m.ram 180#16 := hn
  refine ⟨?_, ⟨20, ?_⟩, ?_⟩
  rotate_left
  · rt_exec [jmpCode.nl_comp.eq, jmpCode.nl_xit.eq, hx, i0, i1, i2, i3, xor0, hn', hs]
    rfl
  · exact ⟨rfl, hq, rfl, rfl, rfl, rfl⟩

/-- `laddr_search_start`. -/
theorem s_start (hb : m.ram 0xA9 ≠ 0#8) : ∃ m', Reach P (jmpCode.laddr_search_start err lerr rest) m (jmpCode.nl_comp err lerr rest) m' ∧ m'.jv = { m.jv with ram := upd m.ram 0xB4 m.x } ∧
    M.at1 m' = word (m.ram 0xA8) (m.ram 0xA9) := by
  have hb' : ¬ m.ram 169#16 = 0#8 := hb
  refine ⟨?_, ⟨5, ?_⟩, ?_⟩
  rotate_left
  · rt_exec [jmpCode.laddr_search_start.eq, hb']
    rfl
  · exact ⟨rfl, rfl⟩

end
end FB.Eng
