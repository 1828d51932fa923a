import Verif.Eng.Code
/-!
# The parser of the native compiler: pieces of the code

What each piece of `engCode` does, seen through `PV`: the part of the state that is kept from one code of a table to the next.
-/
namespace FB.Rt
open Ins Opd

/-- The state of the parser: pointer to the tables, position in the line, length of the code, stack, memory and the rest. `parse.asm:48-62`.
The cells `pptr`, `bpos`, `opos` and `bmax` in `z` are cleared. -/
structure PV where
  pp : W
  ci : B
  op : B
  stk : List Slot
  ram : W → B
  z : Zp
  sl : B → B
  sh : B → B
  out : List (B × B)
  dev : List (B × B) → Regs

def M.pv (m : M) : PV :=
  { pp := word m.zp.pptr m.zp.pptrh, ci := m.zp.cix, op := m.zp.opos, stk := m.stk, ram := m.ram,
    z := { m.zp with pptr := 0, pptrh := 0, cix := 0, opos := 0, bmax := 0 }, sl := m.sl, sh := m.sh, out := m.out, dev := m.dev }

theorem word_succ {l h : B} (hz : ¬ l + 1#8 = 0#8) : word (l + 1#8) h = word l h + 1 := by
  have := l.isLt; have := h.isLt
  have e : (l + 1#8).toNat = l.toNat + 1 := by
    have : l.toNat ≠ 255 := by intro e; exact hz (BitVec.eq_of_toNat_eq (by simp [BitVec.toNat_add, e]))
    simp [BitVec.toNat_add]; omega
  apply BitVec.eq_of_toNat_eq
  rw [BitVec.toNat_add, word_toNat, word_toNat, e]
  simp; omega

theorem word_succ0 {l h : B} (hz : l + 1#8 = 0#8) : word 0#8 (h + 1#8) = word l h + 1 := by
  have := l.isLt; have := h.isLt
  have e : l.toNat = 255 := by have := congrArg BitVec.toNat hz; simp [BitVec.toNat_add] at this; omega
  apply BitVec.eq_of_toNat_eq
  rw [BitVec.toNat_add, word_toNat, word_toNat, e]
  simp [BitVec.toNat_add]; omega

section
variable (tab start : W) (nx err : B)

local notation "P" => engCode tab start nx err

/-- `parser_fetch`, `parse.asm:153-160`. -/
theorem fetch_sub {m : M} {k : Code} {st : List Slot} (hs : m.stk = .ret k :: st) : ∃ m', Reach P (engCode.parser_fetch tab start nx err) m k m' ∧
    m'.pv = { m.pv with pp := m.pv.pp + 1, stk := st } ∧ m'.a = m.pv.ram (m.pv.pp + 1) ∧ m'.x = m.x ∧ m'.y = 0 ∧ m'.n = topBit m'.a ∧ m'.zp.bmax = m.zp.bmax ∧ m'.c = m.c := by
  by_cases hz : m.zp.pptr + 1#8 = 0#8
  · refine ⟨?_, ⟨8, ?_⟩, ?_⟩
    rotate_left
    · rw [engCode.parser_fetch.eq]
      rt_exec [hz, hs, engCode.pf_1.eq, engCode.rts1.eq]
      rfl
    · have := word_succ0 (h := m.zp.pptrh) hz
      simp [M.pv, this, idx]
  · refine ⟨?_, ⟨6, ?_⟩, ?_⟩
    rotate_left
    · rw [engCode.parser_fetch.eq]
      rt_exec [hz, hs, engCode.pf_1.eq, engCode.rts1.eq]
      rfl
    · have := word_succ (h := m.zp.pptrh) hz
      simp [M.pv, this, idx]


/-- The next byte of the table. -/
theorem seg_fetch (m : M) : ∃ m', Reach P (engCode.ploop tab start nx err) m (engCode.ploop_nofetch tab start nx err) m' ∧
    m'.pv = { m.pv with pp := m.pv.pp + 1 } ∧ m'.a = m.pv.ram (m.pv.pp + 1) ∧ m'.n = topBit m'.a ∧ m'.zp.bmax = m.zp.bmax := by
  obtain ⟨m', h, e, h1, -, -, h2, h3, -⟩ := fetch_sub tab start nx err (m := { m with stk := .ret (.lb "ploop_nofetch" :: engCode.ploop_nofetch tab start nx err) :: m.stk }) rfl
  refine ⟨m', Reach.trans (Reach.trans ⟨1, ?_⟩ h) ⟨1, ?_⟩, ?_, h1, h2, h3⟩
  · rt_exec [engCode.ploop.eq]
  · rt_exec
  · rw [e]; rfl

/-- The next byte of the table when literals are skipped. -/
theorem seg_fetch_skip (m : M) : ∃ m', Reach P (engCode.skip_chars tab start nx err) m (engCode.skip_1 tab start nx err) m' ∧
    m'.pv = { m.pv with pp := m.pv.pp + 1 } ∧ m'.a = m.pv.ram (m.pv.pp + 1) ∧ m'.n = topBit m'.a ∧ m'.zp.bmax = m.zp.bmax := by
  obtain ⟨m', h, e, h1, -, -, h2, h3, -⟩ := fetch_sub tab start nx err (m := { m with stk := .ret (.lb "skip_1" :: engCode.skip_1 tab start nx err) :: m.stk }) rfl
  refine ⟨m', Reach.trans (Reach.trans ⟨1, ?_⟩ h) ⟨1, ?_⟩, ?_, h1, h2, h3⟩
  · rt_exec [engCode.skip_chars.eq]
  · rt_exec
  · rw [e]; rfl

theorem c31_ge {a : B} (h : 31 ≤ a.toNat) : addC a 224#8 true = true := by simp [addC]; omega
theorem c31_lt {a : B} (h : a.toNat < 31) : addC a 224#8 true = false := by simp [addC]; omega

/-- Literals are skipped. -/
theorem seg_skip_char (m : M) (hn : m.n = topBit m.a) (h : 31 ≤ m.a.toNat) (h' : m.a.toNat < 128) :
    ∃ m', Reach P (engCode.skip_1 tab start nx err) m (engCode.skip_chars tab start nx err) m' ∧ m'.pv = m.pv := by
  have h1 : topBit m.a = false := by simp [topBit]; omega
  refine ⟨?_, ⟨3, ?_⟩, ?_⟩
  rotate_left
  · rt_exec [engCode.skip_1.eq, hn, h1, c31_ge h]
    rfl
  · rfl

/-- The end of the literals: calls. -/
theorem seg_skip_call (m : M) (hn : m.n = topBit m.a) (h' : 128 ≤ m.a.toNat) :
    Reach P (engCode.skip_1 tab start nx err) m (engCode.ploop_nofetch tab start nx err) m := by
  have h1 : topBit m.a = true := by simp [topBit]; omega
  refine ⟨1, ?_⟩
  rt_exec [engCode.skip_1.eq, hn, h1]

/-- The end of the literals: the other codes. -/
theorem seg_skip_code (m : M) (hn : m.n = topBit m.a) (h : m.a.toNat < 31) :
    ∃ m', Reach P (engCode.skip_1 tab start nx err) m (engCode.ploop_tax tab start nx err) m' ∧ m'.pv = m.pv ∧ m'.a = m.a ∧ m'.c = false := by
  have h1 : topBit m.a = false := by simp [topBit]; omega
  refine ⟨?_, ⟨4, ?_⟩, ?_⟩
  rotate_left
  · rt_exec [engCode.skip_1.eq, hn, h1, c31_lt h]
    rfl
  · exact ⟨rfl, rfl, rfl⟩

/-- The codes that are not calls nor literals. -/
theorem seg_code (m : M) (hn : m.n = topBit m.a) (h : m.a.toNat < 31) :
    ∃ m', Reach P (engCode.ploop_nofetch tab start nx err) m (engCode.ploop_tax tab start nx err) m' ∧ m'.pv = m.pv ∧ m'.a = m.a ∧ m'.c = false := by
  have h1 : topBit m.a = false := by simp [topBit]; omega
  refine ⟨?_, ⟨3, ?_⟩, ?_⟩
  rotate_left
  · rt_exec [engCode.ploop_nofetch.eq, hn, h1, c31_lt h]
    rfl
  · exact ⟨rfl, rfl, rfl⟩

/-- `SM_EXIT` -/
theorem seg_exit (m : M) (hc : m.c = false) (h : m.a = 0#8) :
    ∃ m', Reach P (engCode.ploop_tax tab start nx err) m (engCode.pexit_err tab start nx err) m' ∧ m'.pv = m.pv := by
  refine ⟨?_, ⟨3, ?_⟩, ?_⟩
  rotate_left
  · rt_exec [engCode.ploop_tax.eq, hc, h]
    rfl
  · rfl

/-- `SM_RET` -/
theorem seg_ret (m : M) (hc : m.c = false) (h : m.a = 1#8) :
    ∃ m', Reach P (engCode.ploop_tax tab start nx err) m (engCode.pexit_ok tab start nx err) m' ∧ m'.pv = m.pv := by
  refine ⟨?_, ⟨5, ?_⟩, ?_⟩
  rotate_left
  · rt_exec [engCode.ploop_tax.eq, hc, h]
    rfl
  · rfl

/-- `SM_ERET` -/
theorem seg_eret (m : M) (hc : m.c = false) (h : m.a = 2#8) :
    ∃ m', Reach P (engCode.ploop_tax tab start nx err) m (engCode.pemit_ret tab start nx err) m' ∧ m'.pv = m.pv := by
  refine ⟨?_, ⟨7, ?_⟩, ?_⟩
  rotate_left
  · rt_exec [engCode.ploop_tax.eq, hc, h]
    rfl
  · rfl

/-- `SM_EMIT_n` -/
theorem seg_emit (m : M) (hc : m.c = false) (h : 3 ≤ m.a.toNat) :
    ∃ m', Reach P (engCode.ploop_tax tab start nx err) m (engCode.emit_loop tab start nx err) m' ∧ m'.pv = m.pv ∧ m'.x = m.a - 2#8 := by
  have h0 : ¬ m.a = 0#8 := by intro e; rw [e] at h; exact absurd h (by decide)
  have h1 : ¬ m.a - 1#8 = 0#8 := by bv_omega
  have h2 : ¬ m.a - 1#8 - 1#8 = 0#8 := by bv_omega
  have e2 : m.a - 1#8 - 1#8 = m.a - 2#8 := by rw [BitVec.sub_sub]; rfl
  refine ⟨?_, ⟨8, ?_⟩, ?_⟩
  rotate_left
  · rt_exec [engCode.ploop_tax.eq, hc, h0, h1, h2]
    rfl
  · exact ⟨rfl, e2⟩

/-- `parser_emit_byte`, when the code is not too long. -/
theorem const_sub {m : M} {k : Code} {st : List Slot} (hs : m.stk = .ret k :: st) (hz : ¬ m.pv.op + 1#8 = 0#8) :
    ∃ m', Reach P (engCode.emit_const tab start nx err) m k m' ∧
    m'.pv = { m.pv with op := m.pv.op + 1, stk := st, ram := upd m.pv.ram (idx (word m.zp.prgp m.zp.prgph) m.pv.op) m.a } ∧ m'.x = m.x := by
  have hz' : ¬ m.zp.opos + 1#8 = 0#8 := hz
  refine ⟨?_, ⟨6, ?_⟩, ?_⟩
  rotate_left
  · rt_exec [engCode.emit_const.eq, engCode.parser_inc_opos.eq, engCode.rts1.eq, hz', hs]
    rfl
  · exact ⟨rfl, rfl⟩

/-- `parser_emit_byte`, when the code is too long. -/
theorem const_long {m : M} (hz : m.pv.op + 1#8 = 0#8) :
    ∃ m', Reach P (engCode.emit_const tab start nx err) m (engCode.too_long tab start nx err) m' ∧ m'.stk = m.stk := by
  have hz' : m.zp.opos + 1#8 = 0#8 := hz
  refine ⟨?_, ⟨6, ?_⟩, ?_⟩
  rotate_left
  · rt_exec [engCode.emit_const.eq, engCode.parser_inc_opos.eq, hz']
    rfl
  · rfl

/-- `emit_sub`: a byte of the table goes to the code. -/
theorem emit_sub {m : M} {k : Code} {st : List Slot} (hs : m.stk = .ret k :: st) (hz : ¬ m.pv.op + 1#8 = 0#8) :
    ∃ m', Reach P (engCode.emit_sub tab start nx err) m k m' ∧
    m'.pv = { m.pv with pp := m.pv.pp + 1, op := m.pv.op + 1, stk := st, ram := upd m.pv.ram (idx (word m.zp.prgp m.zp.prgph) m.pv.op) (m.pv.ram (m.pv.pp + 1)) } ∧ m'.x = m.x := by
  obtain ⟨m1, h, e, ha, hx, -⟩ := fetch_sub tab start nx err (m := { m with stk := .ret (.lb "emit_const" :: engCode.emit_const tab start nx err) :: m.stk }) rfl
  have es : m1.stk = .ret k :: st := by have := congrArg PV.stk e; exact this.trans hs
  have eo : m1.pv.op = m.pv.op := by have := congrArg PV.op e; exact this
  have ez : m1.pv.z = m.pv.z := by have := congrArg PV.z e; exact this
  have e1 : m1.zp.prgp = m.zp.prgp := by have := congrArg Zp.prgp ez; exact this
  have e2 : m1.zp.prgph = m.zp.prgph := by have := congrArg Zp.prgph ez; exact this
  obtain ⟨m2, g, e', hx'⟩ := const_sub tab start nx err (m := m1) es (by rw [eo]; exact hz)
  refine ⟨m2, Reach.trans (Reach.trans (Reach.trans ⟨1, ?_⟩ h) ⟨1, ?_⟩) g, ?_, hx'.trans hx⟩
  · rt_exec [engCode.emit_sub.eq]
  · rt_exec
  · rw [e', e1, e2, ha, e]; rfl

theorem emit_long {m : M} (hz : m.pv.op + 1#8 = 0#8) :
    ∃ m', Reach P (engCode.emit_sub tab start nx err) m (engCode.too_long tab start nx err) m' := by
  obtain ⟨m1, h, e, ha, hx, -⟩ := fetch_sub tab start nx err (m := { m with stk := .ret (.lb "emit_const" :: engCode.emit_const tab start nx err) :: m.stk }) rfl
  have eo : m1.pv.op = m.pv.op := by have := congrArg PV.op e; exact this
  obtain ⟨m2, g, -⟩ := const_long tab start nx err (m := m1) (by rw [eo]; exact hz)
  refine ⟨m2, Reach.trans (Reach.trans (Reach.trans ⟨1, ?_⟩ h) ⟨1, ?_⟩) g⟩
  · rt_exec [engCode.emit_sub.eq]
  · rt_exec

/-- A byte emitted. -/
def PV.emit (v : PV) (b : B) : PV := { v with pp := v.pp + 1, op := v.op + 1, ram := upd v.ram (idx (word v.z.prgp v.z.prgph) v.op) b }

/-- The loop of emit. -/
theorem seg_emit1 (m : M) (hz : ¬ m.pv.op + 1#8 = 0#8) :
    ∃ m', Reach P (engCode.emit_loop tab start nx err) m (engCode.emit_next tab start nx err) m' ∧ m'.pv = m.pv.emit (m.pv.ram (m.pv.pp + 1)) ∧ m'.x = m.x := by
  obtain ⟨m', h, e, hx⟩ := emit_sub tab start nx err (m := { m with stk := .ret (.lb "emit_next" :: engCode.emit_next tab start nx err) :: m.stk }) rfl hz
  refine ⟨m', Reach.trans (Reach.trans ⟨1, ?_⟩ h) ⟨1, ?_⟩, ?_, hx⟩
  · rt_exec [engCode.emit_loop.eq]
  · rt_exec
  · rw [e]; rfl

theorem seg_emit_more (m : M) (h : 2 ≤ m.x.toNat) :
    ∃ m', Reach P (engCode.emit_next tab start nx err) m (engCode.emit_loop tab start nx err) m' ∧ m'.pv = m.pv ∧ m'.x = m.x - 1#8 := by
  have h1 : ¬ m.x - 1#8 = 0#8 := by bv_omega
  refine ⟨?_, ⟨2, ?_⟩, ?_⟩
  rotate_left
  · rt_exec [engCode.emit_next.eq, h1]
    rfl
  · exact ⟨rfl, rfl⟩

theorem seg_emit_end (m : M) (h : m.x = 1#8) :
    ∃ m', Reach P (engCode.emit_next tab start nx err) m (engCode.ploop tab start nx err) m' ∧ m'.pv = m.pv := by
  refine ⟨?_, ⟨3, ?_⟩, ?_⟩
  rotate_left
  · rt_exec [engCode.emit_next.eq, h]
    rfl
  · rfl

theorem seg_emit_long (m : M) (hz : m.pv.op + 1#8 = 0#8) :
    ∃ m', Reach P (engCode.emit_loop tab start nx err) m (engCode.too_long tab start nx err) m' := by
  obtain ⟨m', h⟩ := emit_long tab start nx err (m := { m with stk := .ret (.lb "emit_next" :: engCode.emit_next tab start nx err) :: m.stk }) hz
  refine ⟨m', Reach.trans ⟨1, ?_⟩ h⟩
  rt_exec [engCode.emit_loop.eq]

/-- `SM_ERET`: emit and return. -/
theorem seg_emit_ret (m : M) (hz : ¬ m.pv.op + 1#8 = 0#8) :
    ∃ m', Reach P (engCode.pemit_ret tab start nx err) m (engCode.pexit_ok tab start nx err) m' ∧ m'.pv = m.pv.emit (m.pv.ram (m.pv.pp + 1)) := by
  obtain ⟨m', h, e, hx⟩ := emit_sub tab start nx err (m := { m with stk := .ret (.lb "pexit_ok" :: engCode.pexit_ok tab start nx err) :: m.stk }) rfl hz
  refine ⟨m', Reach.trans (Reach.trans ⟨1, ?_⟩ h) ⟨1, ?_⟩, ?_⟩
  · rt_exec [engCode.pemit_ret.eq]
  · rt_exec
  · rw [e]; rfl

theorem seg_ret_long (m : M) (hz : m.pv.op + 1#8 = 0#8) :
    ∃ m', Reach P (engCode.pemit_ret tab start nx err) m (engCode.too_long tab start nx err) m' := by
  obtain ⟨m', h⟩ := emit_long tab start nx err (m := { m with stk := .ret (.lb "pexit_ok" :: engCode.pexit_ok tab start nx err) :: m.stk }) hz
  refine ⟨m', Reach.trans ⟨1, ?_⟩ h⟩
  rt_exec [engCode.pemit_ret.eq]

/-! ### Literals -/

/-- The byte of the line at the current position. -/
def PV.ch (v : PV) : B := v.ram (idx (word v.z.inb v.z.inbh) v.ci)

/-- A character of a literal. -/
theorem seg_char (m : M) (hn : m.n = topBit m.a) (h : 31 ≤ m.a.toNat) (h' : m.a.toNat < 128) :
    ∃ m', Reach P (engCode.ploop_nofetch tab start nx err) m (engCode.match_char tab start nx err) m' ∧ m'.pv = m.pv ∧ m'.a = m.a ∧ m'.x = m.a := by
  have h1 : topBit m.a = false := by simp [topBit]; omega
  refine ⟨?_, ⟨5, ?_⟩, ?_⟩
  rotate_left
  · rt_exec [engCode.ploop_nofetch.eq, engCode.ploop_tax.eq, hn, h1, c31_ge h]
    rfl
  · exact ⟨rfl, rfl, rfl⟩

theorem c97_ge {a : B} (h : 97 ≤ a.toNat) : addC a 158#8 true = true := by simp [addC]; omega
theorem c97_lt {a : B} (h : a.toNat < 97) : addC a 158#8 true = false := by simp [addC]; omega

/-- The letters that are equal in both cases. -/
theorem seg_upper (m : M) (h : m.a.toNat < 97) :
    ∃ m', Reach P (engCode.match_char tab start nx err) m (engCode.match tab start nx err) m' ∧ m'.pv = m.pv ∧ m'.a = m.a ∧ m'.y = m.pv.ci := by
  refine ⟨?_, ⟨3, ?_⟩, ?_⟩
  rotate_left
  · rt_exec [engCode.match_char.eq, c97_lt h]
    rfl
  · exact ⟨rfl, rfl, rfl⟩

/-- An abbreviation. -/
theorem seg_dot (m : M) (h : 97 ≤ m.a.toNat) (hd : m.pv.ch = 46#8) :
    ∃ m', Reach P (engCode.match_char tab start nx err) m (engCode.skip_chars tab start nx err) m' ∧ m'.pv = { m.pv with ci := m.pv.ci + 1 } := by
  have hd' : m.ram (idx (word m.zp.inb m.zp.inbh) m.zp.cix) = 46#8 := hd
  refine ⟨?_, ⟨9, ?_⟩, ?_⟩
  rotate_left
  · rt_exec [engCode.match_char.eq, engCode.matched_dot.eq, c97_ge h, hd']
    rfl
  · rfl

/-- A letter that can be abbreviated. -/
theorem seg_lower (m : M) (hx : m.x = m.a) (h : 97 ≤ m.a.toNat) (hd : m.pv.ch ≠ 46#8) :
    ∃ m', Reach P (engCode.match_char tab start nx err) m (engCode.match tab start nx err) m' ∧ m'.pv = m.pv ∧ m'.a = m.a ^^^ 32#8 ∧ m'.y = m.pv.ci := by
  have hd' : ¬ 46#8 - m.ram (idx (word m.zp.inb m.zp.inbh) m.zp.cix) = 0#8 := by
    have : ¬ m.ram (idx (word m.zp.inb m.zp.inbh) m.zp.cix) = 46#8 := hd
    bv_omega
  refine ⟨?_, ⟨9, ?_⟩, ?_⟩
  rotate_left
  · rt_exec [engCode.match_char.eq, c97_ge h, hd', hx]
    rfl
  · exact ⟨rfl, rfl, rfl⟩

/-- The character is the one in the line. -/
theorem seg_match (m : M) (hy : m.y = m.pv.ci) (h : m.pv.ch = m.a) (hz : ¬ m.pv.ci + 1#8 = 0#8) :
    ∃ m', Reach P (engCode.match tab start nx err) m (engCode.ploop tab start nx err) m' ∧ m'.pv = { m.pv with ci := m.pv.ci + 1 } := by
  have hy' : m.y = m.zp.cix := hy
  have h1 : m.ram (idx (word m.zp.inb m.zp.inbh) m.zp.cix) = m.a := h
  have hz' : ¬ m.zp.cix + 1#8 = 0#8 := hz
  refine ⟨?_, ⟨4, ?_⟩, ?_⟩
  rotate_left
  · rt_exec [engCode.match.eq, hy', h1, hz']
    rfl
  · rfl

/-- The character is not the one in the line. -/
theorem seg_nomatch (m : M) (hy : m.y = m.pv.ci) (h : m.pv.ch ≠ m.a) :
    ∃ m', Reach P (engCode.match tab start nx err) m (engCode.ploop_nextline tab start nx err) m' ∧ m'.pv = m.pv := by
  have hy' : m.y = m.zp.cix := hy
  have h1 : ¬ m.a - m.ram (idx (word m.zp.inb m.zp.inbh) m.zp.cix) = 0#8 := by
    have : ¬ m.ram (idx (word m.zp.inb m.zp.inbh) m.zp.cix) = m.a := h
    bv_omega
  refine ⟨?_, ⟨2, ?_⟩, ?_⟩
  rotate_left
  · rt_exec [engCode.match.eq, hy', h1]
    rfl
  · rfl

/-! ### Calls -/

theorem rol_call (i : Nat) : rol8 (BitVec.ofNat 8 (128 + i)) false = BitVec.ofNat 8 (2 * i) := by
  apply BitVec.eq_of_toNat_eq; simp; omega

/-- A call to a routine. -/
theorem seg_call_ml (m : M) (hn : m.n = topBit m.a) {i : Nat} (hi : i < 128) (ha : m.a = BitVec.ofNat 8 (128 + i)) (hx : 2 * i < nx.toNat) :
    ∃ m', Reach P (engCode.ploop_nofetch tab start nx err) m (engCode.pcall_ml tab start nx err) m' ∧ m'.pv = m.pv ∧
      m'.a = m.pv.ram (tab + 1 + BitVec.ofNat 16 (2 * i)) ∧ m'.x = m.pv.ram (tab + BitVec.ofNat 16 (2 * i)) ∧ m'.c = false := by
  have h1 : topBit m.a = true := by rw [ha]; simp [topBit]; omega
  obtain ⟨y, hy⟩ : ∃ y, y = BitVec.ofNat 8 (2 * i) := ⟨_, rfl⟩
  have hr : rol8 m.a false = y := by rw [ha, hy]; exact rol_call i
  have ey : y.toNat = 2 * i := by rw [hy]; simp; omega
  have h2 : addC y (~~~ nx) true = false := by have := nx.isLt; simp [addC]; omega
  refine ⟨?_, ⟨7, ?_⟩, ?_⟩
  rotate_left
  · rt_exec [engCode.ploop_nofetch.eq, engCode.pcall.eq, hn, h1, hr, h2]
    rfl
  · simp [M.pv, idx, ey]

/-- A call to a table. -/
theorem seg_call_table (m : M) (hn : m.n = topBit m.a) {i : Nat} (hi : i < 128) (ha : m.a = BitVec.ofNat 8 (128 + i)) (hx : nx.toNat ≤ 2 * i) :
    ∃ m', Reach P (engCode.ploop_nofetch tab start nx err) m (engCode.parser_sub tab start nx err) m' ∧ m'.pv = m.pv ∧
      m'.y = m.pv.ram (tab + 1 + BitVec.ofNat 16 (2 * i)) ∧ m'.x = m.pv.ram (tab + BitVec.ofNat 16 (2 * i)) ∧ m'.a = m.zp.pptrh ∧ m'.zp.pptr = m.zp.pptr := by
  have h1 : topBit m.a = true := by rw [ha]; simp [topBit]; omega
  obtain ⟨y, hy⟩ : ∃ y, y = BitVec.ofNat 8 (2 * i) := ⟨_, rfl⟩
  have hr : rol8 m.a false = y := by rw [ha, hy]; exact rol_call i
  have ey : y.toNat = 2 * i := by rw [hy]; simp; omega
  have h2 : addC y (~~~ nx) true = true := by have := nx.isLt; simp [addC]; omega
  refine ⟨?_, ⟨10, ?_⟩, ?_⟩
  rotate_left
  · rt_exec [engCode.ploop_nofetch.eq, engCode.pcall.eq, hn, h1, hr, h2]
    rfl
  · simp [M.pv, idx, ey]

/-- After a routine. -/
theorem seg_back (m : M) : ∃ m', Reach P (engCode.pcall_back tab start nx err) m (if m.c then engCode.ploop_nextline tab start nx err else engCode.ploop tab start nx err) m' ∧ m'.pv = m.pv := by
  cases hc : m.c
  · refine ⟨?_, ⟨1, ?_⟩, ?_⟩
    rotate_left
    · rt_exec [engCode.pcall_back.eq, hc]
      rfl
    · rfl
  · refine ⟨?_, ⟨2, ?_⟩, ?_⟩
    rotate_left
    · rt_exec [engCode.pcall_back.eq, hc]
      rfl
    · rfl

/-- `parse_start`. -/
theorem seg_start (m : M) : ∃ m', Reach P (engCode.parse_start tab start nx err) m (engCode.parser_sub tab start nx err) m' ∧ m'.pv = m.pv ∧
    m'.x = lo (start - 1) ∧ m'.y = hi (start - 1) ∧ m'.a = m.a ∧ m'.zp.pptr = m.zp.pptr := by
  refine ⟨?_, ⟨3, ?_⟩, ?_⟩
  rotate_left
  · rt_exec [engCode.parse_start.eq]
    rfl
  · exact ⟨rfl, rfl, rfl, rfl, rfl⟩

/-- The stack has no place for another table. -/
theorem seg_deep (m : M) (h : 239 < stkSize m.stk + 2) (h' : stkSize m.stk + 2 < 256) :
    ∃ m', Reach P (engCode.parser_sub tab start nx err) m (engCode.too_long tab start nx err) m' ∧ m'.stk = .byte m.zp.pptr :: .byte m.a :: m.stk := by
  have h1 : addC (255#8 - BitVec.ofNat 8 (stkSize m.stk + 1 + 1)) 239#8 true = false := by
    simp [addC, BitVec.toNat_sub]; omega
  refine ⟨?_, ⟨8, ?_⟩, ?_⟩
  rotate_left
  · rt_exec [engCode.parser_sub.eq, stkSize, h1]
    rfl
  · rfl

/-- Start of a table, to `parser_skipws`. -/
theorem seg_sub (m : M) (h : stkSize m.stk + 2 ≤ 239) :
    ∃ m', Reach P (engCode.parser_sub tab start nx err) m (engCode.parser_skipws tab start nx err) m' ∧
      m'.pv = { m.pv with pp := word m.x m.y, stk := .ret (.lb "ploop_line" :: engCode.ploop_line tab start nx err) :: .byte m.zp.pptr :: .byte m.a :: m.pv.stk } := by
  have h1 : addC (255#8 - BitVec.ofNat 8 (stkSize m.stk + 1 + 1)) 239#8 true = true := by
    simp [addC, BitVec.toNat_sub]; omega
  refine ⟨?_, ⟨9, ?_⟩, ?_⟩
  rotate_left
  · rt_exec [engCode.parser_sub.eq, stkSize, h1]
    rfl
  · rfl

/-- A line of the table starts. -/
theorem seg_line (m : M) : ∃ m', Reach P (engCode.ploop_line tab start nx err) m (engCode.ploop tab start nx err) m' ∧
    m'.pv = { m.pv with stk := .byte m.pv.op :: .byte m.pv.ci :: m.pv.stk } := by
  refine ⟨?_, ⟨5, ?_⟩, ?_⟩
  rotate_left
  · rt_exec [engCode.ploop_line.eq]
    rfl
  · rfl

/-- A table succeeds, called from another table. -/
theorem seg_ok (m : M) {o c l h : B} {st : List Slot} (hs : m.pv.stk = .byte o :: .byte c :: .byte l :: .byte h :: st) (hh : h ≠ 0#8) :
    ∃ m', Reach P (engCode.pexit_ok tab start nx err) m (engCode.ploop tab start nx err) m' ∧ m'.pv = { m.pv with pp := word l h, stk := st } := by
  have hs' : m.stk = .byte o :: .byte c :: .byte l :: .byte h :: st := hs
  refine ⟨?_, ⟨7, ?_⟩, ?_⟩
  rotate_left
  · rt_exec [engCode.pexit_ok.eq, hs', hh]
    rfl
  · rfl

/-- The first table succeeds. -/
theorem seg_done (m : M) {o c l : B} {st : List Slot} (hs : m.pv.stk = .byte o :: .byte c :: .byte l :: .byte 0#8 :: st) :
    ∃ m', Reach P (engCode.pexit_ok tab start nx err) m (engCode.pdone tab start nx err) m' ∧ m'.pv = { m.pv with pp := word l 0#8, stk := st } := by
  have hs' : m.stk = .byte o :: .byte c :: .byte l :: .byte 0#8 :: st := hs
  refine ⟨?_, ⟨8, ?_⟩, ?_⟩
  rotate_left
  · rt_exec [engCode.pexit_ok.eq, hs']
    rfl
  · rfl

/-- A table fails, called from another table. -/
theorem seg_err (m : M) {o c l h : B} {st : List Slot} (hs : m.pv.stk = .byte o :: .byte c :: .byte l :: .byte h :: st) (hh : h ≠ 0#8) :
    ∃ m', Reach P (engCode.pexit_err tab start nx err) m (engCode.ploop_nextline tab start nx err) m' ∧ m'.pv = { m.pv with pp := word l h, stk := st } := by
  have hs' : m.stk = .byte o :: .byte c :: .byte l :: .byte h :: st := hs
  refine ⟨?_, ⟨8, ?_⟩, ?_⟩
  rotate_left
  · rt_exec [engCode.pexit_err.eq, hs', hh]
    rfl
  · rfl

/-- The first table fails. -/
theorem seg_parse_err (m : M) {o c l : B} {st : List Slot} (hs : m.pv.stk = .byte o :: .byte c :: .byte l :: .byte 0#8 :: st) :
    ∃ m', Reach P (engCode.pexit_err tab start nx err) m (engCode.set_parse_error tab start nx err) m' ∧ m'.pv.ci = m.pv.ci := by
  have hs' : m.stk = .byte o :: .byte c :: .byte l :: .byte 0#8 :: st := hs
  refine ⟨?_, ⟨6, ?_⟩, ?_⟩
  rotate_left
  · rt_exec [engCode.pexit_err.eq, hs']
    rfl
  · rfl

/-- A line fails. -/
theorem seg_nextline (m : M) {o c : B} {st : List Slot} (hs : m.pv.stk = .byte o :: .byte c :: st) :
    ∃ m', Reach P (engCode.ploop_nextline tab start nx err) m (engCode.skip_nextline tab start nx err) m' ∧ m'.pv = { m.pv with ci := c, op := o, stk := st } ∧ m'.y = 0 := by
  have hs' : m.stk = .byte o :: .byte c :: st := hs
  cases hc : addC m.zp.cix (~~~ m.zp.bmax) true
  · refine ⟨?_, ⟨9, ?_⟩, ?_⟩
    rotate_left
    · rt_exec [engCode.ploop_nextline.eq, engCode.pn_1.eq, hs', hc]
      rfl
    · exact ⟨rfl, rfl⟩
  · refine ⟨?_, ⟨11, ?_⟩, ?_⟩
    rotate_left
    · rt_exec [engCode.ploop_nextline.eq, engCode.pn_1.eq, hs', hc]
      rfl
    · exact ⟨rfl, rfl⟩

/-! ### Skipping the rest of a line -/

theorem seg_skip_sym (m : M) (h : 31 ≤ (m.pv.ram (idx m.pv.pp (m.y + 1#8))).toNat) :
    ∃ m', Reach P (engCode.skip_nextline tab start nx err) m (engCode.skip_nextline tab start nx err) m' ∧ m'.pv = m.pv ∧ m'.y = m.y + 1#8 := by
  have h1 : addC (m.ram (idx (word m.zp.pptr m.zp.pptrh) (m.y + 1#8))) 224#8 true = true := c31_ge h
  refine ⟨?_, ⟨4, ?_⟩, ?_⟩
  rotate_left
  · rt_exec [engCode.skip_nextline.eq, h1]
    rfl
  · exact ⟨rfl, rfl⟩

theorem seg_skip_ret (m : M) (h : m.pv.ram (idx m.pv.pp (m.y + 1#8)) = 1#8) :
    ∃ m', Reach P (engCode.skip_nextline tab start nx err) m (engCode.go_ploop tab start nx err) m' ∧ m'.pv = m.pv ∧ m'.y = m.y + 1#8 ∧ m'.c = false := by
  have h1 : m.ram (idx (word m.zp.pptr m.zp.pptrh) (m.y + 1#8)) = 1#8 := h
  have h2 : addC 1#8 224#8 true = false := rfl
  refine ⟨?_, ⟨7, ?_⟩, ?_⟩
  rotate_left
  · rt_exec [engCode.skip_nextline.eq, h1, h2]
    rfl
  · exact ⟨rfl, rfl, rfl⟩

theorem seg_skip_eret (m : M) (h : m.pv.ram (idx m.pv.pp (m.y + 1#8)) = 2#8) :
    ∃ m', Reach P (engCode.skip_nextline tab start nx err) m (engCode.go_ploop tab start nx err) m' ∧ m'.pv = m.pv ∧ m'.y = m.y + 1#8 + 1#8 ∧ m'.c = false := by
  have h1 : m.ram (idx (word m.zp.pptr m.zp.pptrh) (m.y + 1#8)) = 2#8 := h
  have h2 : addC 2#8 224#8 true = false := rfl
  refine ⟨?_, ⟨11, ?_⟩, ?_⟩
  rotate_left
  · rt_exec [engCode.skip_nextline.eq, engCode.skip_ret.eq, h1, h2]
    rfl
  · exact ⟨rfl, rfl, rfl⟩

theorem seg_skip_emit (m : M) {b : B} (h : m.pv.ram (idx m.pv.pp (m.y + 1#8)) = b) (h3 : 3 ≤ b.toNat) (hb : b.toNat < 31) :
    ∃ m', Reach P (engCode.skip_nextline tab start nx err) m (engCode.sn_1 tab start nx err) m' ∧ m'.pv = m.pv ∧ m'.y = m.y + 1#8 ∧ m'.x = b - 2#8 := by
  have h1 : m.ram (idx (word m.zp.pptr m.zp.pptrh) (m.y + 1#8)) = b := h
  have h4 : ¬ b - 1#8 = 0#8 := by bv_omega
  have h5 : ¬ b - 1#8 - 1#8 = 0#8 := by bv_omega
  have e : b - 1#8 - 1#8 = b - 2#8 := by rw [BitVec.sub_sub]; rfl
  refine ⟨?_, ⟨10, ?_⟩, ?_⟩
  rotate_left
  · rt_exec [engCode.skip_nextline.eq, h1, c31_lt hb, h4, h5]
    rfl
  · exact ⟨rfl, rfl, e⟩

theorem seg_sn_more (m : M) (h : 2 ≤ m.x.toNat) :
    ∃ m', Reach P (engCode.sn_1 tab start nx err) m (engCode.sn_1 tab start nx err) m' ∧ m'.pv = m.pv ∧ m'.y = m.y + 1#8 ∧ m'.x = m.x - 1#8 := by
  have h1 : ¬ m.x - 1#8 = 0#8 := by bv_omega
  refine ⟨?_, ⟨3, ?_⟩, ?_⟩
  rotate_left
  · rt_exec [engCode.sn_1.eq, h1]
    rfl
  · exact ⟨rfl, rfl, rfl⟩

theorem seg_sn_end (m : M) (h : m.x = 1#8) :
    ∃ m', Reach P (engCode.sn_1 tab start nx err) m (engCode.skip_nextline tab start nx err) m' ∧ m'.pv = m.pv ∧ m'.y = m.y + 1#8 := by
  refine ⟨?_, ⟨4, ?_⟩, ?_⟩
  rotate_left
  · rt_exec [engCode.sn_1.eq, h]
    rfl
  · exact ⟨rfl, rfl⟩

/-- The pointer goes to the end of the line. -/
theorem seg_go (m : M) (hc : m.c = false) : ∃ m', Reach P (engCode.go_ploop tab start nx err) m (engCode.ploop_line tab start nx err) m' ∧
    m'.pv = { m.pv with pp := idx m.pv.pp m.y } := by
  cases hq : addC m.y m.zp.pptr false
  · refine ⟨?_, ⟨5, ?_⟩, ?_⟩
    rotate_left
    · rt_exec [engCode.go_ploop.eq, engCode.gp_1.eq, hc, hq]
      rfl
    · have e : word (add8 m.y m.zp.pptr false) m.zp.pptrh = idx (word m.zp.pptr m.zp.pptrh) m.y := by
        have := m.y.isLt; have := m.zp.pptr.isLt; have := m.zp.pptrh.isLt
        have hq' : m.y.toNat + m.zp.pptr.toNat < 256 := by simpa [addC] using hq
        apply BitVec.eq_of_toNat_eq; simp [idx, BitVec.toNat_add]; omega
      simp [M.pv, e]
  · refine ⟨?_, ⟨7, ?_⟩, ?_⟩
    rotate_left
    · rt_exec [engCode.go_ploop.eq, engCode.gp_1.eq, hc, hq]
      rfl
    · have e : word (add8 m.y m.zp.pptr false) (m.zp.pptrh + 1#8) = idx (word m.zp.pptr m.zp.pptrh) m.y := by
        have := m.y.isLt; have := m.zp.pptr.isLt; have := m.zp.pptrh.isLt
        have hq' : 256 ≤ m.y.toNat + m.zp.pptr.toNat := by simpa [addC] using hq
        apply BitVec.eq_of_toNat_eq; simp [idx, BitVec.toNat_add]; omega
      simp [M.pv, e]

/-! ### Blanks -/

theorem seg_ws (m : M) : ∃ m', Reach P (engCode.parser_skipws tab start nx err) m (engCode.skb_1 tab start nx err) m' ∧ m'.pv = m.pv ∧ m'.y = m.pv.ci ∧ m'.a = 32#8 := by
  refine ⟨?_, ⟨3, ?_⟩, ?_⟩
  rotate_left
  · rt_exec [engCode.parser_skipws.eq]
    rfl
  · exact ⟨rfl, rfl, rfl⟩

theorem seg_ws_more (m : M) (ha : m.a = 32#8) (h : m.pv.ram (idx (word m.pv.z.inb m.pv.z.inbh) m.y) = 32#8) (hz : ¬ m.y + 1#8 = 0#8) :
    ∃ m', Reach P (engCode.skb_1 tab start nx err) m (engCode.skb_1 tab start nx err) m' ∧ m'.pv = m.pv ∧ m'.y = m.y + 1#8 ∧ m'.a = 32#8 := by
  have h' : m.ram (idx (word m.zp.inb m.zp.inbh) m.y) = 32#8 := h
  refine ⟨?_, ⟨4, ?_⟩, ?_⟩
  rotate_left
  · rt_exec [engCode.skb_1.eq, ha, h', hz]
    rfl
  · exact ⟨rfl, rfl, rfl⟩

theorem seg_ws_end (m : M) (ha : m.a = 32#8) (h : m.pv.ram (idx (word m.pv.z.inb m.pv.z.inbh) m.y) ≠ 32#8) {k : Code} {st : List Slot} (hs : m.pv.stk = .ret k :: st) :
    ∃ m', Reach P (engCode.skb_1 tab start nx err) m k m' ∧ m'.pv = { m.pv with ci := m.y, stk := st } := by
  have h' : ¬ 32#8 - m.ram (idx (word m.zp.inb m.zp.inbh) m.y) = 0#8 := by
    have : ¬ m.ram (idx (word m.zp.inb m.zp.inbh) m.y) = 32#8 := h
    bv_omega
  have hs' : m.stk = .ret k :: st := hs
  refine ⟨?_, ⟨4, ?_⟩, ?_⟩
  rotate_left
  · rt_exec [engCode.skb_1.eq, engCode.skb_2.eq, ha, h', hs']
    rfl
  · rfl

end
end FB.Rt
