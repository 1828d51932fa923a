import Verif.Eng.KWord
/-!
# The constants in the native compiler: strings, the code
-/
namespace FB.Rt
open Ins Opd

section
variable (err : B)
local notation "Q" => kCode err

variable {m : M} {k : Code} {st : List Slot}

theorem nextByte {b : B} (h : b.toNat < 255) : ¬ b + 1#8 = 0#8 := by
  intro h'; have := congrArg BitVec.toNat h'; rw [BitVec.toNat_add] at this; simp at this; omega

/-- Emit a character and go on. -/
theorem cs_emit (ho : m.zp.opos.toNat < 255) (hx : m.x.toNat < 255) :
    ∃ m', Reach Q (kCode.cs_store err) m (kCode.cs_nloop err) m' ∧ m'.x = m.x + 1#8 ∧ m'.zp.tmp2 = m.zp.tmp2 ∧
      m'.kv = { m.kv with op := m.kv.op + 1, ci := m.kv.ci + 1#8, ram := upd m.ram (idx m.kv.prog m.kv.op) m.a } := by
  obtain ⟨m1, r1, v1, a1, x1, y1, c1, t1, u1⟩ := k_emit err (m := { m with stk := .ret (.lb "cs_incb" :: kCode.cs_incb err) :: m.stk }) rfl (nextByte ho)
  have R : Reach Q (kCode.cs_store err) m (kCode.parser_emit_byte err) { m with stk := .ret (.lb "cs_incb" :: kCode.cs_incb err) :: m.stk } := ⟨1, by rt_exec [kCode.cs_store.eq]⟩
  have hx1 : ¬ m1.x + 1#8 = 0#8 := by rw [x1]; exact nextByte hx
  refine ⟨?_, (R.trans r1).trans ⟨4, ?_⟩, ?_⟩
  rotate_left
  · rt_exec [kCode.cs_incb.eq, hx1]
    rfl
  · refine ⟨congrArg (· + 1#8) x1, t1, ?_⟩
    show ({ m1.kv with ci := m1.kv.ci + 1#8 } : KV) = _
    rw [v1]; rfl

theorem cs_emit_long (ho : m.zp.opos = 255#8) : KErrs err (kCode.cs_store err) m := by
  have R : Reach Q (kCode.cs_store err) m (kCode.parser_emit_byte err) { m with stk := .ret (.lb "cs_incb" :: kCode.cs_incb err) :: m.stk } := ⟨1, by rt_exec [kCode.cs_store.eq]⟩
  exact R.kerrs (k_emit_long err (by show m.zp.opos + 1#8 = 0#8; rw [ho]; rfl))

/-- A character. -/
theorem cs_char (c : B) (hc : m.ram (idx m.kv.bp m.kv.ci) = c) (h1 : c ≠ 34#8) (h2 : c ≠ 155#8) :
    ∃ m', Reach Q (kCode.cs_nloop err) m (kCode.cs_store err) m' ∧ m'.a = c ∧ m'.x = m.x ∧ m'.zp = m.zp ∧ m'.kv = m.kv := by
  have hc : m.ram (idx (word m.zp.inb m.zp.inbh) m.zp.cix) = c := hc
  have h1 : ¬ c - 34#8 = 0#8 := (show ∀ e : B, e ≠ 34#8 → ¬ e - 34#8 = 0#8 by decide +kernel) c h1
  have h2 : ¬ c - 155#8 = 0#8 := (show ∀ e : B, e ≠ 155#8 → ¬ e - 155#8 = 0#8 by decide +kernel) c h2
  refine ⟨?_, ⟨7, ?_⟩, ?_⟩
  rotate_left
  · rt_exec [kCode.cs_nloop.eq, hc, h1, h2]
    rfl
  · exact ⟨rfl, rfl, rfl, rfl⟩

/-- The end of the line. -/
theorem cs_eol (hs : m.stk = .ret k :: st) (hc : m.ram (idx m.kv.bp m.kv.ci) = 155#8) :
    ∃ m', Reach Q (kCode.cs_nloop err) m k m' ∧ m'.c = true ∧ m'.kv = { m.kv with stk := st } := by
  have hc : m.ram (idx (word m.zp.inb m.zp.inbh) m.zp.cix) = 155#8 := hc
  refine ⟨?_, ⟨7, ?_⟩, ?_⟩
  rotate_left
  · rt_exec [kCode.cs_nloop.eq, kCode.cs_xrts.eq, hc, hs]
    rfl
  · exact ⟨rfl, rfl⟩

/-- A quote: the next character. -/
theorem cs_quote (d : B) (hc : m.ram (idx m.kv.bp m.kv.ci) = 34#8) (hd : m.ram (idx m.kv.bp (m.kv.ci + 1#8)) = d) :
    ∃ m', Reach Q (kCode.cs_nloop err) m (if d = 34#8 then kCode.cs_store err else kCode.cs_chk err) m' ∧ m'.a = d ∧ m'.x = m.x ∧ m'.y = m.kv.ci + 1#8 ∧ m'.zp.opos = m.zp.opos ∧
      m'.zp.tmp2 = m.zp.tmp2 ∧ m'.kv = { m.kv with ci := m.kv.ci + 1#8 } := by
  have hc : m.ram (idx (word m.zp.inb m.zp.inbh) m.zp.cix) = 34#8 := hc
  have hd : m.ram (idx (word m.zp.inb m.zp.inbh) (m.zp.cix + 1#8)) = d := hd
  by_cases h : d = 34#8
  · rw [if_pos h]
    subst h
    refine ⟨?_, ⟨9, ?_⟩, ?_⟩
    rotate_left
    · rt_exec [kCode.cs_nloop.eq, kCode.cs_eos.eq, hc, hd]
      rfl
    · exact ⟨rfl, rfl, rfl, rfl, rfl, rfl⟩
  · rw [if_neg h]
    have h : ¬ d - 34#8 = 0#8 := (show ∀ e : B, e ≠ 34#8 → ¬ e - 34#8 = 0#8 by decide +kernel) d h
    refine ⟨?_, ⟨10, ?_⟩, ?_⟩
    rotate_left
    · rt_exec [kCode.cs_nloop.eq, kCode.cs_eos.eq, hc, hd, h]
      rfl
    · exact ⟨rfl, rfl, rfl, rfl, rfl, rfl⟩

/-- The end of the literal: the length is written. -/
theorem cs_end (hs : m.stk = .ret k :: st) (h : m.a ≠ 36#8) :
    ∃ m', Reach Q (kCode.cs_chk err) m k m' ∧ m'.c = false ∧ m'.kv = { m.kv with stk := st, ram := upd m.ram (idx m.kv.prog m.zp.tmp2) m.x } := by
  have h : ¬ m.a ^^^ 36#8 = 0#8 := fun h' => h ((show ∀ c : B, c ^^^ 36#8 = 0#8 → c = 36#8 by decide +kernel) _ h')
  refine ⟨?_, ⟨8, ?_⟩, ?_⟩
  rotate_left
  · rt_exec [kCode.cs_chk.eq, kCode.cs_xrts.eq, h, hs]
    rfl
  · exact ⟨rfl, rfl⟩

/-- `$`. -/
theorem cs_hexa (h : m.a = 36#8) : ∃ m', Reach Q (kCode.cs_chk err) m (kCode.cs_cbyte err) m' ∧ m'.a = 0#8 ∧ m'.x = m.x ∧ m'.y = m.y ∧ m'.zp = m.zp ∧ m'.kv = m.kv := by
  refine ⟨?_, ⟨2, ?_⟩, ?_⟩
  rotate_left
  · rt_exec [kCode.cs_chk.eq, h]
    rfl
  · exact ⟨rfl, rfl, rfl, rfl, rfl⟩

/-- A hexadecimal number. -/
theorem cs_number (hs : m.stk = .ret k :: st) (ds : List B) (e : B) (l : List B) (ha : m.a = 0#8) (hy : m.y = m.kv.ci) (hn : m.kv.ci.toNat + ds.length + 1 < 256)
    (ht : TextAt m.ram (idx m.kv.bp (m.kv.ci + 1#8)) (ds ++ e :: l)) (hd : ∀ c ∈ ds, IsHex c) (he : ¬ IsHex e) :
    if ds ≠ [] ∧ hexNum 0 ds < 65536 then
      if m.kv.op.toNat + 2 ≤ 255 then ∃ m', Reach Q (kCode.cs_cbyte err) m (kCode.cs_2 err) m' ∧ m'.c = false ∧ m'.zp.tmp2 = m.zp.tmp2 ∧ m'.zp.tmp2h = m.x ∧
        m'.kv = { m.kv with op := m.kv.op + 2#8, ci := m.kv.ci + 1#8 + BitVec.ofNat 8 ds.length, ram := writeAt m.ram (idx m.kv.prog m.kv.op) [lo (BitVec.ofNat 16 (hexNum 0 ds)), hi (BitVec.ofNat 16 (hexNum 0 ds))] }
      else KErrs err (kCode.cs_cbyte err) m
    else ∃ m', Reach Q (kCode.cs_cbyte err) m k m' ∧ m'.c = true ∧ m'.kv = { m.kv with stk := st } := by
  obtain ⟨m1, r1, e1⟩ : ∃ m1, Reach Q (kCode.cs_cbyte err) m (kCode.read_hex err) m1 ∧ m1 = { m with stk := .ret (.lb "cs_2" :: kCode.cs_2 err) :: m.stk, zp := { m.zp with tmp2h := m.x } } := by
    refine ⟨?_, ⟨2, ?_⟩, ?_⟩
    rotate_left
    · rt_exec [kCode.cs_cbyte.eq]
      rfl
    · rfl
  have v1 : m1.kv = { m.kv with stk := .ret (.lb "cs_2" :: kCode.cs_2 err) :: m.stk } := by rw [e1]; rfl
  have a1 : m1.a = 0#8 := by rw [e1]; exact ha
  have y1 : m1.y = m.kv.ci := by rw [e1]; exact hy
  have t1 : m1.zp.tmp2 = m.zp.tmp2 := by rw [e1]
  have u1 : m1.zp.tmp2h = m.x := by rw [e1]
  have s1 : m1.stk = .ret (.lb "cs_2" :: kCode.cs_2 err) :: m.stk := congrArg KV.stk v1
  have key := k_hex err m1 ds e l a1 (by rw [y1]; exact hn) (by rw [show m1.ram = m.ram from congrArg KV.ram v1, show m1.kv.bp = m.kv.bp by rw [v1]; rfl, y1]; exact ht) hd he
  split at key
  · next hq =>
    rw [if_pos hq]
    obtain ⟨m2, r2, v2, y2, ax2, t2, u2⟩ := key
    obtain ⟨la, lx⟩ := lo_hi_nat (w := BitVec.ofNat 16 (hexNum 0 ds)) (by rw [ax2, BitVec.toNat_ofNat]; omega)
    have k3 := emitAX_spec err ((congrArg KV.stk v2).trans s1) _ la lx
    have kv2 := v2.trans v1
    rw [show m2.kv.op = m.kv.op by rw [kv2], show m2.kv.prog = m.kv.prog by rw [kv2]; rfl, show m2.ram = m.ram from congrArg KV.ram kv2] at k3
    split at k3
    · next ho =>
      rw [if_pos ho]
      obtain ⟨m3, r3, c3, x3, t3, u3, v3⟩ := k3
      refine ⟨m3, ((r1.trans r2).trans r3).trans ⟨1, rfl⟩, c3, t3.trans (t2.trans t1), u3.trans (u2.trans u1), ?_⟩
      have : m2.y = m.kv.ci + 1#8 + BitVec.ofNat 8 ds.length := by
        apply BitVec.eq_of_toNat_eq
        rw [BitVec.toNat_add, BitVec.toNat_add, y2, y1]
        simp only [BitVec.toNat_ofNat]; omega
      rw [v3, kv2, this]; rfl
    · next ho =>
      rw [if_neg ho]
      exact (r1.trans r2).kerrs k3
  · next hq =>
    rw [if_neg hq]
    obtain ⟨m2, r2, v2⟩ := key
    obtain ⟨m3, r3, v3, c3⟩ := k_fail err ((congrArg KV.stk v2).trans s1)
    have s3 : m3.stk = .ret k :: st := (congrArg KV.stk v3).trans hs
    refine ⟨?_, ((r1.trans r2).trans r3).trans ⟨3, ?_⟩, ?_⟩
    rotate_left
    · rt_exec [kCode.cs_2.eq, kCode.cs_xrts.eq, c3, s3]
      rfl
    · refine ⟨rfl, ?_⟩
      show ({ m3.kv with stk := st } : KV) = _
      rw [v3, v2, v1]

/-- After a number: the next character. -/
theorem cs_next (d : B) (hd : m.ram (idx m.kv.bp m.kv.ci) = d) (hc : m.c = false) (hx : m.zp.tmp2h.toNat < 255) :
    ∃ m', Reach Q (kCode.cs_2 err) m (if d = 34#8 then kCode.cs_nloop err else kCode.cs_chk err) m' ∧ m'.x = m.zp.tmp2h + 1#8 ∧ m'.zp.tmp2 = m.zp.tmp2 ∧
      if d = 34#8 then m'.kv = { m.kv with op := m.kv.op - 1#8, ci := m.kv.ci + 1#8 } else m'.kv = { m.kv with op := m.kv.op - 1#8 } ∧ m'.a = d ∧ m'.y = m.kv.ci := by
  have hd : m.ram (idx (word m.zp.inb m.zp.inbh) m.zp.cix) = d := hd
  have hx1 := nextByte hx
  by_cases h : d = 34#8
  · simp only [if_pos h]
    subst h
    refine ⟨?_, ⟨10, ?_⟩, ?_⟩
    rotate_left
    · rt_exec [kCode.cs_2.eq, kCode.cs_incb.eq, hc, hd, hx1]
      rfl
    · exact ⟨rfl, rfl, rfl⟩
  · simp only [if_neg h]
    have h : ¬ d - 34#8 = 0#8 := (show ∀ e : B, e ≠ 34#8 → ¬ e - 34#8 = 0#8 by decide +kernel) d h
    refine ⟨?_, ⟨9, ?_⟩, ?_⟩
    rotate_left
    · rt_exec [kCode.cs_2.eq, hc, hd, hx1, h]
      rfl
    · exact ⟨rfl, rfl, rfl, rfl, rfl⟩

/-- The start. -/
theorem cs_start : if m.kv.op.toNat + 1 ≤ 255 then ∃ m', Reach Q (kCode.E_CONST_STRING err) m (kCode.cs_nloop err) m' ∧ m'.x = 0#8 ∧ m'.zp.tmp2 = m.kv.op ∧
      m'.kv = { m.kv with op := m.kv.op + 1#8, ram := upd m.ram (idx m.kv.prog m.kv.op) m.a }
    else KErrs err (kCode.E_CONST_STRING err) m := by
  obtain ⟨m1, r1, e1⟩ : ∃ m1, Reach Q (kCode.E_CONST_STRING err) m (kCode.parser_emit_byte err) m1 ∧ m1 = { m with x := 0#8, z := m1.z, n := m1.n, stk := .ret (.lb "cs_1" :: kCode.cs_1 err) :: m.stk } := by
    refine ⟨?_, ⟨2, ?_⟩, ?_⟩
    rotate_left
    · rt_exec [kCode.E_CONST_STRING.eq]
      rfl
    · rfl
  have o1 : m1.zp.opos = m.kv.op := by rw [e1]; rfl
  have ho := m.kv.op.isLt
  by_cases h : m.kv.op.toNat + 1 ≤ 255
  · rw [if_pos h]
    obtain ⟨m2, r2, v2, a2, x2, y2, c2, t2, u2⟩ := k_emit err (m := m1) (by rw [e1]) (by rw [o1]; exact nextByte (by omega))
    refine ⟨?_, (r1.trans r2).trans ⟨3, ?_⟩, ?_⟩
    rotate_left
    · rt_exec [kCode.cs_1.eq]
      rfl
    · refine ⟨x2.trans (by rw [e1]), y2.trans o1, ?_⟩
      show m2.kv = _
      rw [v2, e1]; rfl
  · rw [if_neg h]
    refine r1.kerrs (k_emit_long err ?_)
    rw [o1]
    apply BitVec.eq_of_toNat_eq
    rw [BitVec.toNat_add]; simp; omega
end
end FB.Rt
