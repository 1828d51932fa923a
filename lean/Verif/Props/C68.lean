import Verif.Rt.Cart
/-!
# C68: the start of the cartridges
-/
namespace FB.Rt

/-! ## Specification -/

/-- Specification: `r'` is `r` with the `n` bytes at `src` copied to `dst`, and nothing else changed. -/
def BlockCopied (r r' : W → B) (src dst : W) (n : Nat) : Prop :=
  (∀ i < n, r' (dst + BitVec.ofNat 16 i) = r (src + BitVec.ofNat 16 i)) ∧
  ∀ a, (∀ i < n, a ≠ dst + BitVec.ofNat 16 i) → r' a = r a

/-! ## The loop -/

/-- **C68, the copy of the interpreter**: for any size `n` below 128 the bytes `0` to `n` are copied: the interpreter, and one byte more. -/
theorem C68_loop (n : Nat) (hn : n < 128) (m : M) (hx : m.x = BitVec.ofNat 8 n) :
    ∃ m', Reach ctCode ctCode.ct_copy m ctCode.ct_data m' ∧ BlockCopied m.ram m'.ram 0xBE00 0xA0 (n + 1) ∧ m'.stk = m.stk ∧ m'.zp = m.zp := by
  induction n generalizing m with
  | zero =>
    refine ⟨?_, ⟨5, ?_⟩, ?_⟩
    rotate_left
    · rt_exec [ctCode.ct_copy.eq, hx, idx]
      rfl
    · refine ⟨⟨?_, ?_⟩, rfl, rfl⟩
      · intro i hi
        obtain rfl : i = 0 := by omega
        simp [upd]
      · intro a ha
        have := ha 0 (by omega)
        simp at this
        simp [upd, this]
  | succ n ih =>
    have t : topBit (BitVec.ofNat 8 (n + 1) - 1#8) = false := by
      unfold topBit; simp [BitVec.toNat_sub]; omega
    have k : ∃ m1, Reach ctCode ctCode.ct_copy m ctCode.ct_copy m1 ∧ m1.x = BitVec.ofNat 8 (n + 1) - 1#8 ∧ m1.stk = m.stk ∧ m1.zp = m.zp ∧
        m1.ram = upd m.ram (idx 0xA0 (BitVec.ofNat 8 (n + 1))) (m.ram (idx 0xBE00 (BitVec.ofNat 8 (n + 1)))) := by
      refine ⟨?_, ⟨4, ?_⟩, ?_⟩
      rotate_left
      · rt_exec [ctCode.ct_copy.eq, hx, t]
        rfl
      · exact ⟨rfl, rfl, rfl, rfl⟩
    obtain ⟨m1, r1, x1, s1, z1, e1⟩ := k
    have ex : BitVec.ofNat 8 (n + 1) - 1#8 = BitVec.ofNat 8 n := by
      apply BitVec.eq_of_toNat_eq; simp [BitVec.toNat_sub]; omega
    have en : BitVec.ofNat 16 (BitVec.ofNat 8 (n + 1)).toNat = BitVec.ofNat 16 (n + 1) := by
      congr 1; simp; omega
    obtain ⟨m2, r2, ⟨c1, c2⟩, s2, z2⟩ := ih (by omega) m1 (by rw [x1, ex])
    simp only [idx, en] at e1
    have ne : ∀ (b c : W) (i j : Nat), i < 128 → j < 128 → (b = 0xBE00 ∧ c = 0xA0 ∨ b = c ∧ i ≠ j ) → b + BitVec.ofNat 16 i ≠ c + BitVec.ofNat 16 j := by
      intro b c i j hi hj h e
      have e' := congrArg BitVec.toNat e
      have := b.isLt
      rcases h with ⟨rfl, rfl⟩ | ⟨rfl, h⟩
      · simp at e'; omega
      · simp only [BitVec.toNat_add, BitVec.toNat_ofNat] at e'; omega
    refine ⟨m2, r1.trans r2, ⟨?_, ?_⟩, by rw [s2, s1], by rw [z2, z1]⟩
    · intro i hi
      by_cases h : i = n + 1
      · subst h
        rw [c2 _ (fun j hj => ne _ _ _ _ hn (by omega) (.inr ⟨rfl, by omega⟩)), e1]
        simp [upd]
      · rw [c1 i (by omega), e1]
        exact if_neg (ne _ _ _ _ (by omega) hn (.inl ⟨rfl, rfl⟩))
    · intro a ha
      rw [c2 a (fun i hi => ha i (by omega)), e1]
      exact if_neg (ha (n + 1) (by omega))

/-- **C68, the start**: the interpreter is in its place, with the byte after it, and `move_dwn` is called with the place, the destination and the length of the data. -/
theorem C68_start (m : M) :
    ∃ m', Halts ctCode ctCode.cartridge_start m m' ∧ BlockCopied m.ram m'.ram 0xBE00 0xA0 (0x4B + 1) ∧
      word m'.zp.msrc m'.zp.msrch = 0xBD12 ∧ word m'.zp.mdst m'.zp.mdsth = 0x0734 ∧ m'.ax = 0x0156 ∧ m'.stk = .ret (.lb "ct_ret" :: ctCode.ct_ret) :: m.stk := by
  have k : ∃ m1, Reach ctCode ctCode.cartridge_start m ctCode.ct_copy m1 ∧ m1.x = 0x4B#8 ∧ m1.ram = m.ram ∧ m1.stk = m.stk := by
    refine ⟨?_, ⟨2, ?_⟩, ?_⟩
    rotate_left
    · rt_exec [ctCode.cartridge_start.eq]
      rfl
    · exact ⟨rfl, rfl, rfl⟩
  obtain ⟨m1, r1, x1, e1, s1⟩ := k
  obtain ⟨m2, r2, c2, s2, -⟩ := C68_loop 0x4B (by omega) m1 x1
  have k : ∃ m3, Halts ctCode ctCode.ct_data m2 m3 ∧ m3.ram = m2.ram ∧ word m3.zp.msrc m3.zp.msrch = 0xBD12 ∧ word m3.zp.mdst m3.zp.mdsth = 0x0734 ∧ m3.ax = 0x0156 ∧ m3.stk = .ret (.lb "ct_ret" :: ctCode.ct_ret) :: m2.stk := by
    refine ⟨?_, ⟨12, ?_⟩, ?_⟩
    rotate_left
    · rt_exec [ctCode.ct_data.eq, ctCode.ct_move.eq]
      rfl
    · exact ⟨rfl, by simp [word], by simp [word], by simp [M.ax, word], rfl⟩
  obtain ⟨m3, h3, e3, p3, q3, a3, s3⟩ := k
  exact ⟨m3, (r1.trans r2).halts h3, by rw [e3, ← e1]; exact c2, p3, q3, a3, by rw [s3, s2, s1]⟩

/-- **C68, one byte more** (finding 33): the byte of page 0 after the interpreter gets the byte of the ROM after it. -/
theorem C68_extra (n : Nat) (hn : n < 128) (m : M) (hx : m.x = BitVec.ofNat 8 n) :
    ∃ m', Reach ctCode ctCode.ct_copy m ctCode.ct_data m' ∧ m'.ram (0xA0 + BitVec.ofNat 16 n) = m.ram (0xBE00 + BitVec.ofNat 16 n) := by
  obtain ⟨m', r, c, -, -⟩ := C68_loop n hn m hx
  exact ⟨m', r, c.1 n (by omega)⟩

/-! ## Example: an interpreter of 2 bytes, `$E6 $A1`, with `$60` after it in the ROM: three bytes are copied, and the byte `$A3` does not change -/

example (m : M) (hx : m.x = 2) (hm : m.ram = upd (upd (upd (upd (fun _ => 0) 0xBE00 0xE6) 0xBE01 0xA1) 0xBE02 0x60) 0xA3 0x77) :
    ∃ m', Reach ctCode ctCode.ct_copy m ctCode.ct_data m' ∧ m'.ram 0xA0 = 0xE6 ∧ m'.ram 0xA1 = 0xA1 ∧ m'.ram 0xA2 = 0x60 ∧ m'.ram 0xA3 = 0x77 := by
  obtain ⟨m', r, ⟨c1, c2⟩, -, -⟩ := C68_loop 2 (by omega) m hx
  refine ⟨m', r, ?_, ?_, ?_, ?_⟩
  · have := c1 0 (by omega); rw [hm] at this; simpa [upd] using this
  · have := c1 1 (by omega); rw [hm] at this; simpa [upd] using this
  · have := c1 2 (by omega); rw [hm] at this; simpa [upd] using this
  · rw [c2 0xA3 (by intro i hi e; have := congrArg BitVec.toNat e; simp at this; omega), hm]; simp [upd]

end FB.Rt
