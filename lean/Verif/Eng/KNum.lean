import Verif.Eng.KLift
/-!
# The constants in the native compiler: pieces of the code
-/
namespace FB.Rt
open Ins Opd

/-! ## The routines of the runtime and the ROM -/

theorem skb_suf : Suf val8Code val8Code.SKBLANK := find_suf val8Code.SKBLANK.find
theorem rw_suf : Suf val8Code val8Code.read_word := find_suf val8Code.read_word.find

/-- `SKBLANK` by itself. -/
theorem skb_alone (m : M) {k : Code} {st : List Slot} (hs : m.stk = .ret k :: st) (n : Nat) (c : B) (l : List B) (hn : m.zp.cix.toNat + n < 256)
    (ht : TextAt m.ram (idx m.bp m.zp.cix) (List.replicate n 32#8 ++ c :: l)) (hc : c ≠ 32#8) :
    ∃ m', Reach val8Code val8Code.SKBLANK m k m' ∧ ValKept8 { m with stk := st } m' ∧ m'.y = m'.zp.cix ∧ m'.zp.cix.toNat = m.zp.cix.toNat + n ∧ m'.c = m'.c := by
  obtain ⟨m1, r1, y1, a1, b1, k1⟩ : ∃ m1, Reach val8Code val8Code.SKBLANK m val8Code.skb_1 m1 ∧ m1.y = m.zp.cix ∧ m1.a = 32#8 ∧ m1.bp = m.bp ∧ ValKept8 m m1 := by
    refine ⟨?_, ⟨3, ?_⟩, ?_⟩
    rotate_left
    · rt_exec [val8Code.SKBLANK.eq]
      rfl
    · exact ⟨rfl, rfl, rfl, vkept8⟩
  obtain ⟨m2, r2, k2, y2, -⟩ := val8_skip n m1 c l a1 (by rw [y1]; exact hn) (by rw [b1, y1, k1.ram]; exact ht) hc
  have s2 : m2.stk = .ret k :: st := (k2.stk.trans k1.stk).trans hs
  have k12 := k1.trans k2
  refine ⟨?_, (r1.trans r2).trans ⟨2, ?_⟩, ?_, ?_, ?_, rfl⟩
  rotate_left
  · rt_exec [val8Code.skb_2.eq, s2]
    rfl
  · exact ⟨rfl, k12.sl, k12.sh, k12.ram, k12.sptr, k12.saddr, k12.saddrh, k12.arr, k12.arrh, k12.mins, k12.inb, k12.inbh, k12.ioerr, k12.tmp2h⟩
  · rfl
  · show m2.y.toNat = _; rw [y2, y1]

/-- `read_word` by itself, in a text that does not start with a blank: a sign, digits and something else. -/
theorem rw_alone (m : M) {k : Code} {st : List Slot} (hs : m.stk = .ret k :: st) (c : B) (q : List B) (ds : List B) (e : B) (l : List B)
    (hn : m.zp.cix.toNat + (if c = 45 ∨ c = 43 then 1 else 0) + ds.length < 256) (ht : TextAt m.ram (idx m.bp m.zp.cix) (c :: q)) (hc : c ≠ 32#8)
    (hq : if c = 45 ∨ c = 43 then q = ds ++ e :: l else c :: q = ds ++ e :: l) (hd : ∀ c ∈ ds, IsDig c) (he : ¬ IsDig e) :
    ∃ m', Reach val8Code val8Code.read_word m k m' ∧ (∀ t, ValKept8 { m with stk := st, zp := { m.zp with tmp2h := t } } { m' with zp := { m'.zp with tmp2h := t } }) ∧
      if 65536 ≤ numVal 0 ds ∨ ds = [] then m'.c = true
      else m'.c = false ∧ m'.ax = (if c = 45 then - BitVec.ofNat 16 (numVal 0 ds) else BitVec.ofNat 16 (numVal 0 ds)) ∧
        m'.y.toNat = m.zp.cix.toNat + (if c = 45 ∨ c = 43 then 1 else 0) + ds.length := by
  have R1 : Reach val8Code val8Code.read_word m val8Code.SKBLANK { m with stk := .ret (.lb "rw_1" :: val8Code.rw_1) :: m.stk } := ⟨1, by rt_exec [val8Code.read_word.eq]⟩
  obtain ⟨m1, r1, k1, y1, c1, -⟩ := skb_alone { m with stk := .ret (.lb "rw_1" :: val8Code.rw_1) :: m.stk } rfl 0 c q (by simp only; omega) ht hc
  have R2 : Reach val8Code (.lb "rw_1" :: val8Code.rw_1) m1 val8Code.rw_1 m1 := ⟨1, rfl⟩
  have y1n : m1.y = m.zp.cix := by apply BitVec.eq_of_toNat_eq; rw [y1, c1]; simp
  have b1 : m1.bp = m.bp := by unfold M.bp; rw [k1.inb, k1.inbh]
  obtain ⟨m5, r5, ax5, y5, z, nn, v, k5⟩ := val8_sign m1 c (by rw [k1.ram, b1, y1n]; exact ht.head)
  have y5n : m5.y.toNat = m.zp.cix.toNat + (if c = 45 ∨ c = 43 then 1 else 0) := by
    rw [y5, y1n]; split
    · next h => rw [if_pos h] at hn; rw [show m.zp.cix + 1 = m.zp.cix + 1#8 from rfl, BitVec.toNat_add]; simp; omega
    · rfl
  have b5 : m5.bp = m.bp := by rw [← b1]; unfold M.bp; rw [k5.inb, k5.inbh]
  have ram5 : m5.ram = m.ram := k5.ram.trans k1.ram
  have t5 : TextAt m5.ram (idx m5.bp m5.y) (ds ++ e :: l) := by
    rw [ram5, b5, y5, y1n]
    by_cases h : c = 45 ∨ c = 43
    · rw [if_pos h] at hq hn ⊢
      rw [show m.zp.cix + 1 = m.zp.cix + 1#8 from rfl, idx_succ _ _ (by omega), ← hq]; exact ht.tail
    · rw [if_neg h] at hq ⊢
      rw [← hq]; exact ht
  have t2h : m5.zp.tmp2h = m5.y := by rw [k5.tmp2h, y5]
  have stk5 : m5.stk = .flags (decide (c = 45)) z nn v :: .ret k :: st := by rw [k5.stk]; simp only; rw [k1.stk, hs]
  have R := ((R1.trans r1).trans R2).trans r5
  have kk : ∀ m7 : M, ValKept8 { m5 with stk := st } m7 → ∀ t, ValKept8 { m with stk := st, zp := { m.zp with tmp2h := t } } { m7 with zp := { m7.zp with tmp2h := t } } := by
    intro m7 k7 t
    exact ⟨k7.stk, k7.sl.trans (k5.sl.trans k1.sl), k7.sh.trans (k5.sh.trans k1.sh), k7.ram.trans ram5, k7.sptr.trans (k5.sptr.trans k1.sptr), k7.saddr.trans (k5.saddr.trans k1.saddr),
      k7.saddrh.trans (k5.saddrh.trans k1.saddrh), k7.arr.trans (k5.arr.trans k1.arr), k7.arrh.trans (k5.arrh.trans k1.arrh), k7.mins.trans (k5.mins.trans k1.mins),
      k7.inb.trans (k5.inb.trans k1.inb), k7.inbh.trans (k5.inbh.trans k1.inbh), k7.ioerr.trans (k5.ioerr.trans k1.ioerr), rfl⟩
  have up : ∀ m6 m7 : M, ValKept8 m5 m6 → ValKept8 { m6 with stk := st } m7 → ValKept8 { m5 with stk := st } m7 := by
    intro m6 m7 k6 k7
    exact ⟨k7.stk, k7.sl.trans k6.sl, k7.sh.trans k6.sh, k7.ram.trans k6.ram, k7.sptr.trans k6.sptr, k7.saddr.trans k6.saddr, k7.saddrh.trans k6.saddrh, k7.arr.trans k6.arr,
      k7.arrh.trans k6.arrh, k7.mins.trans k6.mins, k7.inb.trans k6.inb, k7.inbh.trans k6.inbh, k7.ioerr.trans k6.ioerr, k7.tmp2h.trans k6.tmp2h⟩
  have hlast := val8_loop ds m5 0 e l (by rw [ax5]; rfl) (by rw [y5n]; exact hn) t5 hd he
  split at hlast
  · next hlt =>
    obtain ⟨m6, r6, ax6, y6, k6⟩ := hlast
    obtain ⟨m7, r7, k7, h7⟩ := val8_xit m6 _ z nn v _ st (k6.stk.trans stk5)
    have hax : m6.ax = BitVec.ofNat 16 (numVal 0 ds) := by
      apply BitVec.eq_of_toNat_eq; rw [ax6, BitVec.toNat_ofNat]; omega
    have hiff : m6.y = m6.zp.tmp2h ↔ ds = [] := by
      rw [k6.tmp2h, t2h]
      constructor
      · intro h
        have := congrArg BitVec.toNat h
        rw [y6] at this
        exact List.eq_nil_of_length_eq_zero (by omega)
      · intro h
        apply BitVec.eq_of_toNat_eq
        rw [y6, h]; rfl
    refine ⟨m7, R.trans (r6.trans r7), kk m7 (up m6 m7 k6 k7), ?_⟩
    by_cases hn : ds = []
    · rw [if_pos (hiff.2 hn)] at h7
      rw [if_pos (.inr hn)]; exact h7
    · rw [if_neg (fun h => hn (hiff.1 h))] at h7
      rw [if_neg (by rintro (h | h); · omega
                     · exact hn h)]
      refine ⟨h7.1, ?_, ?_⟩
      · rw [h7.2.1, hax]; simp only [decide_eq_true_eq]
      · rw [h7.2.2, y6, y5n]
  · next hlt =>
    obtain ⟨m6, r6, k6⟩ := hlast
    obtain ⟨m7, r7, c7, k7⟩ := val8_ebig m6 _ z nn v _ st (k6.stk.trans stk5)
    refine ⟨m7, R.trans (r6.trans r7), kk m7 (up m6 m7 k6 k7), ?_⟩
    rw [if_pos (.inl (by omega))]; exact c7

section
variable (err : B)
local notation "Q" => kCode err

/-- The routine shows an error message and the compiler ends. -/
def KErrs (k : Code) (m : M) : Prop := ∃ m', Reach Q k m (kCode.parser_error err) m'

variable {err}
theorem Reach.kerrs {k k' : Code} {m m' : M} (h : Reach Q k m k' m') (h' : KErrs err k' m') : KErrs err k m := by
  obtain ⟨m2, h2⟩ := h'; exact ⟨m2, h.trans h2⟩
variable (err)

/-- `SKBLANK` in the compiler. -/
theorem k_skb (m : M) {k : Code} {st : List Slot} (hs : m.stk = .ret k :: st) (n : Nat) (c : B) (l : List B) (hn : m.zp.cix.toNat + n < 256)
    (ht : TextAt m.ram (idx m.kv.bp m.kv.ci) (List.replicate n 32#8 ++ c :: l)) (hc : c ≠ 32#8) :
    ∃ m', Reach Q (kCode.SKBLANK err) m k m' ∧ m'.kv = { m.kv with stk := st, ci := m'.zp.cix } ∧ m'.y = m'.zp.cix ∧ m'.zp.cix.toNat = m.zp.cix.toNat + n := by
  obtain ⟨m1, r1, k1, y1, c1, -⟩ := skb_alone { m with stk := [.ret away] } rfl n c l hn ht hc
  obtain ⟨r, e⟩ := val_call err skb_suf hs r1 ⟨k1.stk, k1.sl, k1.sh, k1.ram, k1.sptr, k1.saddr, k1.saddrh, k1.arr, k1.arrh, k1.mins, k1.inb, k1.inbh, k1.ioerr, rfl⟩
  exact ⟨_, r, e, y1, c1⟩

/-- `read_word` in the compiler. -/
theorem k_rw (m : M) {k : Code} {st : List Slot} (hs : m.stk = .ret k :: st) (c : B) (q : List B) (ds : List B) (e : B) (l : List B)
    (hn : m.zp.cix.toNat + (if c = 45 ∨ c = 43 then 1 else 0) + ds.length < 256) (ht : TextAt m.ram (idx m.kv.bp m.kv.ci) (c :: q)) (hc : c ≠ 32#8)
    (hq : if c = 45 ∨ c = 43 then q = ds ++ e :: l else c :: q = ds ++ e :: l) (hd : ∀ c ∈ ds, IsDig c) (he : ¬ IsDig e) :
    ∃ m', Reach Q (kCode.read_word err) m k m' ∧ m'.kv = { m.kv with stk := st, ci := m'.zp.cix } ∧
      if 65536 ≤ numVal 0 ds ∨ ds = [] then m'.c = true
      else m'.c = false ∧ m'.ax = (if c = 45 then - BitVec.ofNat 16 (numVal 0 ds) else BitVec.ofNat 16 (numVal 0 ds)) ∧
        m'.y.toNat = m.zp.cix.toNat + (if c = 45 ∨ c = 43 then 1 else 0) + ds.length := by
  obtain ⟨m1, r1, k1, h1⟩ := rw_alone { m with stk := [.ret away] } rfl c q ds e l hn ht hc hq hd he
  obtain ⟨r, e⟩ := val_call err rw_suf hs r1 (k1 m.zp.tmp2h)
  exact ⟨_, r, e, h1⟩

/-! ## Emit -/

variable {m : M} {k : Code} {st : List Slot} (hs : m.stk = .ret k :: st)
include hs

theorem k_emit (ho : ¬ m.zp.opos + 1#8 = 0#8) : ∃ m', Reach Q (kCode.parser_emit_byte err) m k m' ∧
    m'.kv = { m.kv with op := m.kv.op + 1, stk := st, ram := upd m.ram (idx m.kv.prog m.kv.op) m.a } ∧ m'.a = m.a ∧ m'.x = m.x ∧ m'.y = m.kv.op ∧ m'.c = m.c ∧ m'.zp.tmp2 = m.zp.tmp2 ∧ m'.zp.tmp2h = m.zp.tmp2h := by
  refine ⟨?_, ⟨6, ?_⟩, ?_⟩
  rotate_left
  · rt_exec [kCode.parser_emit_byte.eq, kCode.parser_inc_opos.eq, kCode.rts1.eq, ho, hs]
    rfl
  · exact ⟨rfl, rfl, rfl, rfl, rfl, rfl, rfl⟩

omit hs in
theorem k_emit_long (ho : m.zp.opos + 1#8 = 0#8) : KErrs err (kCode.parser_emit_byte err) m := by
  refine ⟨?_, ⟨8, ?_⟩⟩
  rotate_left
  · rt_exec [kCode.parser_emit_byte.eq, kCode.parser_inc_opos.eq, kCode.too_long.eq, ho]
    rfl

/-- `xit_emit` and `emit_AX`. -/
theorem k_emitAX (h1 : ¬ m.zp.opos + 1#8 = 0#8) (h2 : ¬ m.zp.opos + 1#8 + 1#8 = 0#8) : ∃ m', Reach Q (kCode.xit_emit err) m k m' ∧
    m'.kv = { m.kv with op := m.kv.op + 1 + 1, ci := m.y, stk := st, ram := upd (upd m.ram (idx m.kv.prog m.kv.op) m.a) (idx m.kv.prog (m.kv.op + 1)) m.x } ∧ m'.x = m.x ∧ m'.c = false ∧
    m'.zp.tmp2 = m.zp.tmp2 ∧ m'.zp.tmp2h = m.zp.tmp2h := by
  obtain ⟨m1, r1, e1⟩ : ∃ m1, Reach Q (kCode.xit_emit err) m (kCode.parser_emit_byte err) m1 ∧ m1 = { m with c := false, zp := { m.zp with cix := m.y }, stk := .ret (.lb "ea_1" :: kCode.ea_1 err) :: m.stk } := by
    refine ⟨?_, ⟨4, ?_⟩, ?_⟩
    rotate_left
    · rt_exec [kCode.xit_emit.eq, kCode.emit_AX.eq]
      rfl
    · rfl
  subst e1
  obtain ⟨m2, r2, v2, a2, x2, y2, c2, t2, t2h⟩ := k_emit err (m := { m with c := false, zp := { m.zp with cix := m.y }, stk := .ret (.lb "ea_1" :: kCode.ea_1 err) :: m.stk }) rfl h1
  have s2 : m2.stk = .ret k :: st := (congrArg KV.stk v2).trans hs
  have o2 : m2.zp.opos = m.zp.opos + 1#8 := congrArg KV.op v2
  obtain ⟨m3, r3, e3⟩ : ∃ m3, Reach Q (.lb "ea_1" :: kCode.ea_1 err) m2 (kCode.parser_emit_byte err) m3 ∧ m3.kv = m2.kv ∧ m3.a = m2.x ∧ m3.x = m2.x ∧ m3.c = m2.c ∧ m3.zp = m2.zp := by
    refine ⟨?_, ⟨3, ?_⟩, ?_⟩
    rotate_left
    · rt_exec [kCode.ea_1.eq]
      rfl
    · exact ⟨rfl, rfl, rfl, rfl, rfl⟩
  obtain ⟨v3, a3, x3, c3, z3⟩ := e3
  have s3 : m3.stk = .ret k :: st := (congrArg KV.stk v3).trans s2
  obtain ⟨m4, r4, v4, a4, x4, y4, c4, t4, t4h⟩ := k_emit err (m := m3) s3 (by rw [z3, o2]; exact h2)
  refine ⟨m4, ((r1.trans r2).trans r3).trans r4, ?_, ?_, ?_, ?_, ?_⟩
  · rw [v4, v3, v2, show m3.ram = m2.kv.ram from congrArg KV.ram v3, v2, a3, x2]; rfl
  · rw [x4, x3, x2]
  · rw [c4, c3, c2]
  · rw [t4, z3, t2]
  · rw [t4h, z3, t2h]

omit hs in
theorem k_emitAX_long (h : m.zp.opos + 1#8 = 0#8 ∨ m.zp.opos + 1#8 + 1#8 = 0#8) : KErrs err (kCode.xit_emit err) m := by
  obtain ⟨m1, r1, e1⟩ : ∃ m1, Reach Q (kCode.xit_emit err) m (kCode.parser_emit_byte err) m1 ∧ m1 = { m with c := false, zp := { m.zp with cix := m.y }, stk := .ret (.lb "ea_1" :: kCode.ea_1 err) :: m.stk } := by
    refine ⟨?_, ⟨4, ?_⟩, ?_⟩
    rotate_left
    · rt_exec [kCode.xit_emit.eq, kCode.emit_AX.eq]
      rfl
    · rfl
  subst e1
  by_cases h1 : m.zp.opos + 1#8 = 0#8
  · exact r1.kerrs (k_emit_long err h1)
  · obtain ⟨m2, r2, v2, a2, x2, y2, c2, t2, t2h⟩ := k_emit err (m := { m with c := false, zp := { m.zp with cix := m.y }, stk := .ret (.lb "ea_1" :: kCode.ea_1 err) :: m.stk }) rfl h1
    have o2 : m2.zp.opos = m.zp.opos + 1#8 := congrArg KV.op v2
    obtain ⟨m3, r3, z3⟩ : ∃ m3, Reach Q (.lb "ea_1" :: kCode.ea_1 err) m2 (kCode.parser_emit_byte err) m3 ∧ m3.zp = m2.zp := by
      refine ⟨?_, ⟨3, ?_⟩, ?_⟩
      rotate_left
      · rt_exec [kCode.ea_1.eq]
        rfl
      · rfl
    exact ((r1.trans r2).trans r3).kerrs (k_emit_long err (by rw [z3, o2]; exact h.resolve_left h1))

/-- Return with the carry set. -/
theorem k_fail : ∃ m', Reach Q (kCode.k_xit err) m k m' ∧ m'.kv = { m.kv with stk := st } ∧ m'.c = true := by
  refine ⟨?_, ⟨3, ?_⟩, ?_⟩
  rotate_left
  · rt_exec [kCode.k_xit.eq, kCode.k_ret.eq, hs]
    rfl
  · exact ⟨rfl, rfl⟩

end

/-! ## Hexadecimal numbers -/

/-- A digit that the compiler knows: no small letters. -/
def IsHex (c : B) : Prop := (48 ≤ c.toNat ∧ c.toNat ≤ 57) ∨ (65 ≤ c.toNat ∧ c.toNat ≤ 70)

instance (c : B) : Decidable (IsHex c) := by unfold IsHex; infer_instance

/-- Its value. -/
def hexd (c : B) : Nat := if c.toNat ≤ 57 then c.toNat - 48 else c.toNat - 55

def hexNum (t : Nat) (ds : List B) : Nat := ds.foldl (fun n c => n * 16 + hexd c) t

theorem hexNum_ge (ds : List B) : ∀ t, t ≤ hexNum t ds := by
  induction ds with
  | nil => intro t; exact Nat.le_refl _
  | cons d ds ih => intro t; exact Nat.le_trans (by omega) (ih (t * 16 + hexd d))

theorem hexd_lt {c : B} (h : IsHex c) : hexd c < 16 := by
  unfold IsHex at h; unfold hexd; split <;> omega

/-- The digit, in the high half of the accumulator. -/
theorem hex_dig : ∀ c : B, addC (c ^^^ 48#8) 245#8 true = false → IsHex c ∧ (rol8 (rol8 (rol8 (rol8 (c ^^^ 48#8) false) false) false) false).toNat = 16 * hexd c := by decide +kernel

theorem hex_let : ∀ c : B, addC (c ^^^ 48#8) 245#8 true = true → (addC (add8 (c ^^^ 48#8) 136#8 true) 5#8 true = true ↔ IsHex c) ∧
    (IsHex c → (rol8 (rol8 (rol8 (rol8 (add8 (c ^^^ 48#8) 136#8 true) false) false) false) false).toNat = 16 * hexd c) := by decide +kernel

section
variable (err : B)
local notation "Q" => kCode err

/-- One bit. -/
theorem rh_bit (m : M) : if topBit m.zp.tmp1h then ∃ m', Reach Q (kCode.rh_mul err) m (kCode.k_xit err) m' ∧ m'.kv = m.kv
    else ∃ m', Reach Q (kCode.rh_mul err) m (if topBit (m.x - 1#8) = true then kCode.rh_nloop err else kCode.rh_mul err) m' ∧ m'.kv = m.kv ∧ m'.x = m.x - 1#8 ∧ m'.y = m.y ∧ m'.a = rol8 m.a false ∧
      m'.zp.tmp1 = rol8 m.zp.tmp1 (topBit m.a) ∧ m'.zp.tmp1h = rol8 m.zp.tmp1h (topBit m.zp.tmp1) ∧ m'.zp.tmp2 = m.zp.tmp2 ∧ m'.zp.tmp2h = m.zp.tmp2h := by
  cases h : topBit m.zp.tmp1h with
  | true =>
    rw [if_pos rfl]
    refine ⟨?_, ⟨4, ?_⟩, ?_⟩
    rotate_left
    · rt_exec [kCode.rh_mul.eq, h]
      rfl
    · rfl
  | false =>
    rw [if_neg (by simp)]
    cases hx : topBit (m.x - 1#8) with
    | true =>
      rw [if_pos rfl]
      refine ⟨?_, ⟨7, ?_⟩, ?_⟩
      rotate_left
      · rt_exec [kCode.rh_mul.eq, h, hx]
        rfl
      · exact ⟨rfl, rfl, rfl, rfl, rfl, rfl, rfl, rfl⟩
    | false =>
      rw [if_neg (by simp)]
      refine ⟨?_, ⟨6, ?_⟩, ?_⟩
      rotate_left
      · rt_exec [kCode.rh_mul.eq, h, hx]
        rfl
      · exact ⟨rfl, rfl, rfl, rfl, rfl, rfl, rfl, rfl⟩

/-- Four bits: the number in `tmp1` is shifted, with the bits of the accumulator. -/
theorem rh_bits (j : Nat) : ∀ m : M, j ≤ 3 → m.x.toNat = j →
    if (m.a.toNat + 256 * (m.zp.tmp1.toNat + 256 * m.zp.tmp1h.toNat)) * 2 ^ (j + 1) < 2 ^ 24 then
      ∃ m', Reach Q (kCode.rh_mul err) m (kCode.rh_nloop err) m' ∧ m'.kv = m.kv ∧ m'.x = 255#8 ∧ m'.y = m.y ∧
        m'.zp.tmp1.toNat + 256 * m'.zp.tmp1h.toNat = (m.a.toNat + 256 * (m.zp.tmp1.toNat + 256 * m.zp.tmp1h.toNat)) * 2 ^ (j + 1) / 256 ∧ m'.zp.tmp2 = m.zp.tmp2 ∧ m'.zp.tmp2h = m.zp.tmp2h
    else ∃ m', Reach Q (kCode.rh_mul err) m (kCode.k_xit err) m' ∧ m'.kv = m.kv := by
  induction j with
  | zero =>
    intro m _ hx
    have hb := rh_bit err m
    have l0 := m.a.isLt; have l1 := m.zp.tmp1.isLt; have l2 := m.zp.tmp1h.isLt
    have hx0 : m.x = 0#8 := BitVec.eq_of_toNat_eq hx
    cases ht : topBit m.zp.tmp1h with
    | true =>
      rw [ht, if_pos rfl] at hb
      have := congrArg Bool.toNat ht
      rw [topBit_toNat] at this
      simp at this
      rw [if_neg (by omega)]
      exact hb
    | false =>
      have := congrArg Bool.toNat ht
      rw [topBit_toNat] at this
      simp at this
      rw [ht, if_neg (by simp), if_pos (by rw [hx0]; rfl)] at hb
      rw [if_pos (by omega)]
      obtain ⟨m', r, v, x, y, a, t, th, u, w⟩ := hb
      refine ⟨m', r, v, by rw [x, hx0]; rfl, y, ?_, u, w⟩
      rw [t, th, rol8_toNat, rol8_toNat, topBit_toNat, topBit_toNat]
      omega
  | succ j ih =>
    intro m hj hx
    have hb := rh_bit err m
    have l0 := m.a.isLt; have l1 := m.zp.tmp1.isLt; have l2 := m.zp.tmp1h.isLt
    have hx1 : (m.x - 1#8).toNat = j := by bv_omega
    have hx2 : topBit (m.x - 1#8) = false := by unfold topBit; rw [hx1]; simp; omega
    have e2 : 2 ^ (j + 1 + 1) = 2 * 2 ^ (j + 1) := by rw [Nat.pow_succ, Nat.mul_comm]
    have e3 : ∀ N, N * (2 * 2 ^ (j + 1)) = (2 * N) * 2 ^ (j + 1) := by intro N; rw [← Nat.mul_assoc, Nat.mul_comm N 2]
    rw [e2, e3]
    cases ht : topBit m.zp.tmp1h with
    | true =>
      rw [ht, if_pos rfl] at hb
      have := congrArg Bool.toNat ht
      rw [topBit_toNat] at this
      simp at this
      have hge : 2 * (m.a.toNat + 256 * (m.zp.tmp1.toNat + 256 * m.zp.tmp1h.toNat)) ≥ 2 ^ 24 := by omega
      rw [if_neg]
      · exact hb
      · have : 1 ≤ 2 ^ (j + 1) := Nat.one_le_two_pow
        have := Nat.mul_le_mul hge this
        omega
    | false =>
      have := congrArg Bool.toNat ht
      rw [topBit_toNat] at this
      simp at this
      rw [ht, if_neg (by simp), if_neg (by rw [hx2]; simp)] at hb
      obtain ⟨m', r, v, x, y, a, t, th, u, w⟩ := hb
      have key := ih m' (by omega) (by rw [x]; exact hx1)
      have eN : m'.a.toNat + 256 * (m'.zp.tmp1.toNat + 256 * m'.zp.tmp1h.toNat) = 2 * (m.a.toNat + 256 * (m.zp.tmp1.toNat + 256 * m.zp.tmp1h.toNat)) := by
        rw [a, t, th, rol8_toNat, rol8_toNat, rol8_toNat, topBit_toNat, topBit_toNat]
        simp only [Bool.toNat_false]
        omega
      rw [eN] at key
      by_cases hq : 2 * (m.a.toNat + 256 * (m.zp.tmp1.toNat + 256 * m.zp.tmp1h.toNat)) * 2 ^ (j + 1) < 2 ^ 24
      · rw [if_pos hq] at key ⊢
        obtain ⟨m2, r2, v2, x2, y2, t2, u2, w2⟩ := key
        exact ⟨m2, r.trans r2, v2.trans v, x2, y2.trans y, t2, u2.trans u, w2.trans w⟩
      · rw [if_neg hq] at key ⊢
        obtain ⟨m2, r2, v2⟩ := key
        exact ⟨m2, r.trans r2, v2.trans v⟩

/-- One more digit. -/
theorem rh_digit (m : M) (T : Nat) (c : B) (hT : m.zp.tmp1.toNat + 256 * m.zp.tmp1h.toNat = T) (hc : m.ram (idx m.kv.bp (m.y + 1#8)) = c) (hh : IsHex c) :
    if T * 16 + hexd c < 65536 then ∃ m', Reach Q (kCode.rh_nloop err) m (kCode.rh_nloop err) m' ∧ m'.kv = m.kv ∧ m'.x = 255#8 ∧ m'.y = m.y + 1#8 ∧
        m'.zp.tmp1.toNat + 256 * m'.zp.tmp1h.toNat = T * 16 + hexd c ∧ m'.zp.tmp2 = m.zp.tmp2 ∧ m'.zp.tmp2h = m.zp.tmp2h
    else ∃ m', Reach Q (kCode.rh_nloop err) m (kCode.k_xit err) m' ∧ m'.kv = m.kv := by
  have hc : m.ram (idx (word m.zp.inb m.zp.inbh) (m.y + 1#8)) = c := hc
  obtain ⟨m1, r1, v1, x1, y1, a1, t1, t1h, u1, w1⟩ : ∃ m1, Reach Q (kCode.rh_nloop err) m (kCode.rh_mul err) m1 ∧ m1.kv = m.kv ∧ m1.x = 3#8 ∧ m1.y = m.y + 1#8 ∧ m1.a.toNat = 16 * hexd c ∧
      m1.zp.tmp1 = m.zp.tmp1 ∧ m1.zp.tmp1h = m.zp.tmp1h ∧ m1.zp.tmp2 = m.zp.tmp2 ∧ m1.zp.tmp2h = m.zp.tmp2h := by
    cases h : addC (c ^^^ 48#8) 245#8 true with
    | false =>
      refine ⟨?_, ⟨11, ?_⟩, ?_⟩
      rotate_left
      · rt_exec [kCode.rh_nloop.eq, kCode.rh_digit.eq, hc, h]
        rfl
      · exact ⟨rfl, rfl, rfl, (hex_dig c h).2, rfl, rfl, rfl, rfl⟩
    | true =>
      have h2 := ((hex_let c h).1).2 hh
      refine ⟨?_, ⟨15, ?_⟩, ?_⟩
      rotate_left
      · rt_exec [kCode.rh_nloop.eq, kCode.rh_digit.eq, hc, h, h2]
        rfl
      · exact ⟨rfl, rfl, rfl, (hex_let c h).2 hh, rfl, rfl, rfl, rfl⟩
  have key := rh_bits err 3 m1 (by omega) (by rw [x1]; rfl)
  rw [a1, t1, t1h, hT] at key
  have hd := hexd_lt hh
  have e : (16 * hexd c + 256 * T) * 2 ^ (3 + 1) / 256 = T * 16 + hexd c := by omega
  rw [e] at key
  split at key
  · next hlt =>
    obtain ⟨m2, r2, v2, x2, y2, t2, u2, w2⟩ := key
    rw [if_pos (by omega)]
    exact ⟨m2, r1.trans r2, v2.trans v1, x2, y2.trans y1, t2, u2.trans u1, w2.trans w1⟩
  · next hlt =>
    obtain ⟨m2, r2, v2⟩ := key
    rw [if_neg (by omega)]
    exact ⟨m2, r1.trans r2, v2.trans v1⟩

/-- No digit. -/
theorem rh_end (m : M) (c : B) (hc : m.ram (idx m.kv.bp (m.y + 1#8)) = c) (hh : ¬ IsHex c) :
    ∃ m', Reach Q (kCode.rh_nloop err) m (kCode.rh_xit err) m' ∧ m'.kv = m.kv ∧ m'.x = m.x ∧ m'.y = m.y + 1#8 ∧ m'.c = false ∧
        m'.zp.tmp1 = m.zp.tmp1 ∧ m'.zp.tmp1h = m.zp.tmp1h ∧ m'.zp.tmp2 = m.zp.tmp2 ∧ m'.zp.tmp2h = m.zp.tmp2h := by
  have hc : m.ram (idx (word m.zp.inb m.zp.inbh) (m.y + 1#8)) = c := hc
  have h : addC (c ^^^ 48#8) 245#8 true = true := by
    cases h : addC (c ^^^ 48#8) 245#8 true with
    | false => exact absurd (hex_dig c h).1 hh
    | true => rfl
  have h2 : addC (add8 (c ^^^ 48#8) 136#8 true) 5#8 true = false := by
    cases h2 : addC (add8 (c ^^^ 48#8) 136#8 true) 5#8 true with
    | false => rfl
    | true => exact absurd ((hex_let c h).1.1 h2) hh
  refine ⟨?_, ⟨8, ?_⟩, ?_⟩
  rotate_left
  · rt_exec [kCode.rh_nloop.eq, hc, h, h2]
    rfl
  · exact ⟨rfl, rfl, rfl, rfl, rfl, rfl, rfl, rfl⟩

/-- All the digits. -/
theorem rh_loop (ds : List B) : ∀ (m : M) (T : Nat) (e : B) (l : List B), m.zp.tmp1.toNat + 256 * m.zp.tmp1h.toNat = T → m.y.toNat + ds.length + 1 < 256 →
    TextAt m.ram (idx m.kv.bp (m.y + 1#8)) (ds ++ e :: l) → (∀ c ∈ ds, IsHex c) → ¬ IsHex e →
    if hexNum T ds < 65536 then ∃ m', Reach Q (kCode.rh_nloop err) m (kCode.rh_xit err) m' ∧ m'.kv = m.kv ∧ m'.x = (if ds = [] then m.x else 255#8) ∧ m'.y.toNat = m.y.toNat + ds.length + 1 ∧
        m'.c = false ∧ m'.zp.tmp1.toNat + 256 * m'.zp.tmp1h.toNat = hexNum T ds ∧ m'.zp.tmp2 = m.zp.tmp2 ∧ m'.zp.tmp2h = m.zp.tmp2h
    else ∃ m', Reach Q (kCode.rh_nloop err) m (kCode.k_xit err) m' ∧ m'.kv = m.kv := by
  induction ds with
  | nil =>
    intro m T e l hT hy ht _ he
    have l1 := m.zp.tmp1.isLt; have l2 := m.zp.tmp1h.isLt
    have e0 : hexNum T [] = T := rfl
    rw [e0, if_pos (by omega), if_pos rfl]
    obtain ⟨m', r, v, x, y, c, t, th, u, w⟩ := rh_end err m e ht.head he
    refine ⟨m', r, v, x, ?_, c, by rw [t, th, hT], u, w⟩
    rw [y, BitVec.toNat_add]; simp at hy ⊢; omega
  | cons d ds ih =>
    intro m T e l hT hy ht hd he
    have hh := hd d (List.mem_cons_self ..)
    have hst : hexNum T (d :: ds) = hexNum (T * 16 + hexd d) ds := rfl
    rw [hst, if_neg (show ¬ d :: ds = [] by simp)]
    simp only [List.length_cons] at hy
    have y1 : (m.y + 1#8).toNat = m.y.toNat + 1 := by rw [BitVec.toNat_add]; simp; omega
    have key := rh_digit err m T d hT ht.head hh
    split at key
    · obtain ⟨m1, r1, v1, x1, yy1, t1, u1, w1⟩ := key
      have ht1 : TextAt m1.ram (idx m1.kv.bp (m1.y + 1#8)) (ds ++ e :: l) := by
        rw [show m1.ram = m.ram from congrArg KV.ram v1, v1, yy1, idx_succ _ _ (by rw [y1]; omega)]
        exact ht.tail
      have k2 := ih m1 _ e l t1 (by rw [yy1, y1]; omega) ht1 (fun c hc => hd c (List.mem_cons_of_mem _ hc)) he
      split at k2
      · next hlt =>
        obtain ⟨m2, r2, v2, x2, y2, c2, t2, u2, w2⟩ := k2
        rw [if_pos hlt]
        refine ⟨m2, r1.trans r2, v2.trans v1, ?_, ?_, c2, t2, u2.trans u1, w2.trans w1⟩
        · rw [x2, x1]; split <;> rfl
        · rw [y2, yy1, y1]; simp only [List.length_cons]; omega
      · next hlt =>
        obtain ⟨m2, r2, v2⟩ := k2
        rw [if_neg hlt]
        exact ⟨m2, r1.trans r2, v2.trans v1⟩
    · obtain ⟨m1, r1, v1⟩ := key
      have := hexNum_ge ds (T * 16 + hexd d)
      rw [if_neg (by omega)]
      exact ⟨m1, r1, v1⟩

/-- `read_hex`, at `$`: up to `xit_emit` with the number in `AX`, or to the failure. -/
theorem k_hex (m : M) (ds : List B) (e : B) (l : List B) (ha : m.a = 0#8) (hy : m.y.toNat + ds.length + 1 < 256)
    (ht : TextAt m.ram (idx m.kv.bp (m.y + 1#8)) (ds ++ e :: l)) (hd : ∀ c ∈ ds, IsHex c) (he : ¬ IsHex e) :
    if ds ≠ [] ∧ hexNum 0 ds < 65536 then ∃ m', Reach Q (kCode.read_hex err) m (kCode.xit_emit err) m' ∧ m'.kv = m.kv ∧ m'.y.toNat = m.y.toNat + ds.length + 1 ∧
        m'.a.toNat + 256 * m'.x.toNat = hexNum 0 ds ∧ m'.zp.tmp2 = m.zp.tmp2 ∧ m'.zp.tmp2h = m.zp.tmp2h
    else ∃ m', Reach Q (kCode.read_hex err) m (kCode.k_xit err) m' ∧ m'.kv = m.kv := by
  obtain ⟨m1, r1, v1, x1, y1, t1, u1, w1⟩ : ∃ m1, Reach Q (kCode.read_hex err) m (kCode.rh_nloop err) m1 ∧ m1.kv = m.kv ∧ m1.x = 0#8 ∧ m1.y = m.y ∧ m1.zp.tmp1.toNat + 256 * m1.zp.tmp1h.toNat = 0 ∧
      m1.zp.tmp2 = m.zp.tmp2 ∧ m1.zp.tmp2h = m.zp.tmp2h := by
    refine ⟨?_, ⟨4, ?_⟩, ?_⟩
    rotate_left
    · rt_exec [kCode.read_hex.eq, ha]
      rfl
    · exact ⟨rfl, rfl, rfl, rfl, rfl, rfl⟩
  have key := rh_loop err ds m1 0 e l t1 (by rw [y1]; exact hy) (by rw [show m1.ram = m.ram from congrArg KV.ram v1, v1, y1]; exact ht) hd he
  split at key
  · next hlt =>
    obtain ⟨m2, r2, v2, x2, y2, c2, t2, u2, w2⟩ := key
    by_cases hn : ds = []
    · rw [if_neg (fun h => h.1 hn)]
      rw [if_pos hn, x1] at x2
      refine ⟨?_, (r1.trans r2).trans ⟨2, ?_⟩, ?_⟩
      rotate_left
      · rt_exec [kCode.rh_xit.eq, x2]
        rfl
      · exact v2.trans v1
    · rw [if_pos ⟨hn, hlt⟩]
      rw [if_neg hn] at x2
      refine ⟨?_, (r1.trans r2).trans ⟨5, ?_⟩, ?_⟩
      rotate_left
      · rt_exec [kCode.rh_xit.eq, x2, c2]
        rfl
      · refine ⟨v2.trans v1, ?_, t2, u2.trans u1, w2.trans w1⟩
        show m2.y.toNat = _
        rw [y2, y1]
  · next hlt =>
    obtain ⟨m2, r2, v2⟩ := key
    rw [if_neg (fun h => hlt h.2)]
    exact ⟨m2, r1.trans r2, v2.trans v1⟩

end

end FB.Rt
