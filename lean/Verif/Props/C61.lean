import Verif.Props.C60
import Verif.Rt.Gr52
/-!
# C61: `INPUT` in the Atari 5200
-/
namespace FB.Rt

/-! ## Specification -/

/-- Specification: the character of a key of the keypad. -/
def keyChar (d : Nat) : B := if d < 10 then BitVec.ofNat 8 (48 + d) else if d = 10 then 42 else 35

/-- Specification: the longest text, for a value of `INPUT_WIDTH`. -/
def maxLen (w : Nat) : Nat := if 1 ≤ w ∧ w ≤ 128 then w - 1 else 127

/-- Specification: the text after some keys: 0 to 9, `*` (10) and `#` (11) add a character, if there is space; `RESET` (14) deletes the last one. -/
def editKeys (mx : Nat) : List B → List B → List B
  | s, [] => s
  | s, k :: ks =>
    if k.toNat % 16 = 14 then editKeys mx s.dropLast ks
    else if s.length < mx then editKeys mx (s ++ [keyChar (k.toNat % 16)]) ks
    else editKeys mx s ks

/-- Specification: the code `k`, with the keys of the list pressed while it waits for each of them, ends in `m'`. Pressing a key is a change of `CH` in the interrupt, when there is no key in it. -/
inductive Typed : List B → Code → M → M → Prop
  | done {k m m'} : Halts txCode k m m' → Typed [] k m m'
  | press {c ks k m m1 m'} : Reach txCode k m txCode.get_key m1 → m1.ram kbCH = 0xFF → Typed ks txCode.get_key { m1 with ram := upd m1.ram kbCH c } m' → Typed (c :: ks) k m m'

/-- The table `trans`, `a5200/input.asm:86-88`. -/
def transTab : List B := [48, 49, 50, 51, 52, 53, 54, 55, 56, 57, 42, 35, 0, 0, 0x80]

/-! ## What stays -/

/-- The first cell of the screen that the input may change. -/
def inStart (m0 : M) : Nat := rowStart m0.ram (m0.ram ROWCRS).toNat + (m0.ram COLCRS).toNat

/-- Memory is the same, but for some cells, the buffer and the screen from the cursor. -/
def InFr (m0 m : M) : Prop :=
  ∀ a : W, a ∉ [gTmp4, gTmp41, COLCRS, kbCH] → a.toNat < 0x600 ∨ 0x681 ≤ a.toNat → a.toNat < inStart m0 ∨ inStart m0 + 130 ≤ a.toNat → m.ram a = m0.ram a

/-- The place of the cursor at the start is on a screen of text. -/
structure InOk (m0 : M) : Prop where
  row : (m0.ram ROWCRS).toNat < 24
  lo : 0x1000 ≤ rowStart m0.ram (m0.ram ROWCRS).toNat
  hi : rowStart m0.ram (m0.ram ROWCRS).toNat + 300 ≤ 0xB000
  col : (m0.ram COLCRS).toNat < 126

theorem InFr.low {m0 m : M} (h : InFr m0 m) (h0 : InOk m0) {a : W} (ha : a.toNat < 0x600) (hn : a ∉ [gTmp4, gTmp41, COLCRS, kbCH]) : m.ram a = m0.ram a :=
  h a hn (Or.inl ha) (Or.inl (by have := h0.lo; rw [inStart]; omega))

/-- The cell of a character of the text. -/
def inCell (m0 : M) (i : Nat) : W := cellAt m0.ram (m0.ram ROWCRS).toNat ((m0.ram COLCRS).toNat + i)

theorem inCell_toNat {m0 : M} (h0 : InOk m0) {i : Nat} (hi : i < 130) : (inCell m0 i).toNat = inStart m0 + i ∧ 0x1000 ≤ inStart m0 := by
  obtain ⟨g1, g2, g3, g4⟩ := h0
  rw [inCell, cellAt_toNat _ _ _ (by omega), inStart]
  omega

theorem inCell_notin {m0 : M} (h0 : InOk m0) {i : Nat} (hi : i < 130) : inCell m0 i ∉ [gTmp4, gTmp41, COLCRS, kbCH] := by
  have := inCell_toNat h0 hi
  simp only [List.mem_cons, List.not_mem_nil, or_false, not_or]
  refine ⟨?_, ?_, ?_, ?_⟩ <;> (intro e; rw [e] at this; simp at this; omega)

theorem notin3 {a x y z w : W} (h : a ∉ [x, y, z, w]) : a ∉ [x, y, z] := fun e => h (List.mem_append_left [w] e)

theorem in_put {m0 m : M} (h0 : InOk m0) (hf : InFr m0 m) (k : Code) (st : List Slot) (hk : m.stk = .ret k :: st) (hc : m.a ≠ 155) {q : Nat} (hq : (m.ram COLCRS).toNat = (m0.ram COLCRS).toNat + q)
    (hq2 : q < 129) : ∃ m', Reach txCode txCode.putc m k m' ∧ m'.stk = st ∧ m'.txv = m.txv ∧ (m'.ram COLCRS).toNat = (m0.ram COLCRS).toNat + q + 1 ∧ InFr m0 m' ∧
      m'.ram (inCell m0 q) = toScreen m.a ∧ (∀ a : W, a.toNat ≠ inStart m0 + q → a ∉ [gTmp4, gTmp41, COLCRS] → m'.ram a = m.ram a) := by
  have e1 := hf.low h0 (a := SAVMSC) (by decide) (by decide)
  have e2 := hf.low h0 (a := SAVMSC1) (by decide) (by decide)
  have e3 := hf.low h0 (a := DINDEX) (by decide) (by decide)
  have e4 := hf.low h0 (a := ROWCRS) (by decide) (by decide)
  have cs := cellAt_same e1 e2 e3
  obtain ⟨g1, g2, g3, g4⟩ := h0
  have hb : (cellAt m.ram (m.ram ROWCRS).toNat (m.ram COLCRS).toNat).toNat = inStart m0 + q := by
    rw [e4, (cs _ _).1, hq, cellAt_toNat _ _ _ (by omega), inStart]; omega
  have hst : inStart m0 = rowStart m0.ram (m0.ram ROWCRS).toNat + (m0.ram COLCRS).toNat := rfl
  obtain ⟨m', r, s, v, sc, c, o⟩ := C60_putc m k st hk hc (by rw [e4]; exact g1) (by rw [hb]; omega)
  refine ⟨m', r, s, v, ?_, ?_, ?_, ?_⟩
  · rw [c, BitVec.toNat_add, hq]
    show ((m0.ram COLCRS).toNat + q + 1) % 256 = _
    omega
  · intro a h1 h2 h3
    rw [o a, hf a h1 h2 h3]
    simp only [List.mem_cons, List.not_mem_nil, or_false, not_or] at h1 ⊢
    refine ⟨h1.1, h1.2.1, h1.2.2.1, fun e => ?_⟩
    rw [e, hb] at h3; omega
  · rw [inCell, ← sc, e4, (cs _ _).1, hq]
  · intro a h1 h2
    apply o
    simp only [List.mem_cons, List.not_mem_nil, or_false, not_or] at h2 ⊢
    refine ⟨h2.1, h2.2.1, h2.2.2, fun e => ?_⟩
    rw [e, hb] at h1; omega

/-- What the input does not touch. -/
def M.inv (m : M) : List Slot × (B → B) × (B → B) × Zp × List (B × B) × (List (B × B) → Regs) := (m.stk, m.sl, m.sh, m.zp, m.out, m.dev)

/-- The state at the wait for a key, with the text `s`. -/
structure InS (m0 : M) (mx : Nat) (s : List B) (m : M) : Prop where
  len : s.length ≤ mx
  y : m.y = BitVec.ofNat 8 s.length
  buf : ∀ i (h : i < s.length), m.ram (0x601#16 + BitVec.ofNat 16 i) = s[i]
  col : (m.ram COLCRS).toNat = (m0.ram COLCRS).toNat + s.length
  scr : ∀ i (h : i < s.length), m.ram (inCell m0 i) = toScreen s[i]
  ch : m.ram kbCH = 0xFF
  fr : InFr m0 m
  inv : m.inv = m0.inv

theorem buf_toNat {i : Nat} (h : i < 128) : (0x601#16 + BitVec.ofNat 16 i).toNat = 0x601 + i := by
  rw [BitVec.toNat_add, BitVec.toNat_ofNat]
  show (0x601 + i % 65536) % 65536 = _
  omega

theorem buf_notin {i : Nat} (h : i < 128) : (0x601#16 + BitVec.ofNat 16 i) ∉ [gTmp4, gTmp41, COLCRS, kbCH] := by
  have := buf_toNat h
  simp only [List.mem_cons, List.not_mem_nil, or_false, not_or]
  refine ⟨?_, ?_, ?_, ?_⟩ <;> (intro e; rw [e] at this; simp at this; omega)

/-- The cursor is shown, and the keyboard is waited for. -/
theorem in_wait {m0 m : M} {mx : Nat} {s : List B} (h0 : InOk m0) (hm : mx < 128) (h : InS m0 mx s m) :
    ∃ m1, Reach txCode txCode.in_key m txCode.get_key m1 ∧ InS m0 mx s { m1 with stk := m0.stk } ∧ m1.stk = .ret (.lb "in_2" :: txCode.in_2) :: m0.stk ∧
      m1.ram (inCell m0 s.length) = toScreen 0xDF := by
  have hs0 := (inCell_toNat h0 (i := 0) (by omega)).2
  have hl := h.len
  have hstk : m.stk = m0.stk := congrArg (·.1) h.inv
  obtain ⟨m1, r1, e1⟩ : ∃ m1, Reach txCode txCode.in_key m txCode.putc m1 ∧ m1 = { m with a := 0xDF#8, z := false, n := true, stk := .ret (.lb "in_1" :: txCode.in_1) :: m.stk } := by
    refine ⟨_, ⟨2, ?_⟩, rfl⟩
    rt_exec [txCode.in_key.eq, topBit]
  have fr1 : InFr m0 m1 := by rw [e1]; exact h.fr
  obtain ⟨m2, r2, s2, v2, c2, f2, sc2, o2⟩ := in_put h0 fr1 _ _ (by rw [e1]) (by rw [e1]; show (0xDF#8 : B) ≠ 155; decide) (q := s.length) (by rw [e1]; exact h.col) (by omega)
  have o2 : ∀ a : W, a.toNat ≠ inStart m0 + s.length → a ∉ [gTmp4, gTmp41, COLCRS] → m2.ram a = m.ram a := fun a h1 h2 => by rw [o2 a h1 h2, e1]
  have hinv : m2.sl = m.sl ∧ m2.sh = m.sh ∧ m2.zp = m.zp ∧ m2.out = m.out ∧ m2.dev = m.dev ∧ m2.y = m.y := by
    rw [e1] at v2
    simp only [M.txv, Prod.mk.injEq] at v2
    exact ⟨v2.2.1, v2.2.2.1, v2.2.2.2.1, v2.2.2.2.2.1, v2.2.2.2.2.2, v2.1⟩
  obtain ⟨i1, i2, i3, i4, i5, i6⟩ := hinv
  have hmi := h.inv
  simp only [M.inv, Prod.mk.injEq] at hmi
  refine ⟨?_, r1.trans (r2.trans ⟨3, ?_⟩), ?_, ?_, ?_⟩
  rotate_left
  · rt_exec [txCode.in_1.eq]
    rfl
  · have hg := h0.col
    refine ⟨hl, i6.trans h.y, ?_, ?_, ?_, ?_, ?_, ?_⟩
    · intro i hi
      have hb := buf_notin (i := i) (by omega)
      have ht := buf_toNat (i := i) (by omega)
      dsimp only
      rw [upd_ne (fun e => hb (by simp [e])), o2 _ (by omega) (notin3 hb), h.buf i hi]
    · dsimp only
      rw [upd_at, BitVec.toNat_sub, c2]
      simp; omega
    · intro i hi
      have hb := inCell_notin h0 (i := i) (by omega)
      have ht := inCell_toNat h0 (i := i) (by omega)
      dsimp only
      rw [upd_ne (fun e => hb (by simp [e])), o2 _ (by omega) (notin3 hb), h.scr i hi]
    · dsimp only
      rw [upd_ne (by decide), o2 _ (by show 0x6D ≠ _; omega) (by decide), h.ch]
    · intro a h1 h2 h3
      dsimp only
      rw [upd_ne (fun e => h1 (by simp [e])), f2 a h1 h2 h3]
    · simp only [M.inv, i1, i2, i3, i4, i5, hmi]
  · show _ :: m2.stk = _
    rw [s2, ← hstk]
  · have hb := inCell_notin h0 (i := s.length) (by omega)
    dsimp only
    rw [upd_ne (fun e => hb (by simp [e])), sc2, e1]
    rfl

/-- The key is read. -/
theorem in_read {m : M} (k : Code) (st : List Slot) (hk : m.stk = .ret k :: st) (hc : m.ram kbCH ≠ 0xFF) :
    ∃ m', Reach txCode txCode.get_key m k m' ∧ m'.a = m.ram kbCH ∧ m'.y = m.y ∧ m'.stk = st ∧ m'.ram = upd m.ram kbCH 0xFF ∧ m'.sl = m.sl ∧ m'.sh = m.sh ∧ m'.zp = m.zp ∧ m'.out = m.out ∧
      m'.dev = m.dev := by
  have h1 : ¬ (m.ram kbCH - 255#8 = 0#8) := fun e => hc (by
    generalize m.ram kbCH = q at e; bv_omega)
  refine ⟨?_, ⟨7, ?_⟩, ?_⟩
  rotate_left
  · rt_exec [txCode.get_key.eq, h1, hk]
    rfl
  · exact ⟨rfl, rfl, rfl, rfl, rfl, rfl, rfl, rfl, rfl⟩

/-- From the press of a key to its meaning. -/
theorem in_press {m0 m : M} {mx : Nat} {s : List B} (h : InS m0 mx s { m with stk := m0.stk }) (hk : m.stk = .ret (.lb "in_2" :: txCode.in_2) :: m0.stk)
    (c : B) (hc : c ≠ 0xFF) : ∃ m', Reach txCode txCode.get_key { m with ram := upd m.ram kbCH c } txCode.in_2 m' ∧ InS m0 mx s m' ∧ m'.a = c ∧ m'.ram = m.ram := by
  obtain ⟨m1, r1, a1, y1, s1, u1, i1, i2, i3, i4, i5⟩ := in_read (m := { m with ram := upd m.ram kbCH c }) _ _ hk (by simp only [upd_at]; exact hc)
  have u1 : m1.ram = m.ram := by
    rw [u1]
    funext a
    by_cases ha : a = kbCH
    · subst ha; rw [upd_at]; exact h.ch.symm
    · rw [upd_ne ha]; exact upd_ne ha
  refine ⟨m1, r1.trans ⟨1, ?_⟩, ?_, by rw [a1]; simp [upd_at], u1⟩
  · rt_exec
  · obtain ⟨l, y, b, co, sc, ch, fr, iv⟩ := h
    refine ⟨l, y1.trans y, fun i hi => by rw [u1]; exact b i hi, by rw [u1]; exact co, fun i hi => by rw [u1]; exact sc i hi, by rw [u1]; exact ch, fun a h1 h2 h3 => by rw [u1]; exact fr a h1 h2 h3, ?_⟩
    rw [← iv]
    simp only [M.inv, s1, i1, i2, i3, i4, i5]

/-- The last character is deleted from the text and from the screen. -/
theorem in_del {m0 m : M} (h0 : InOk m0) {n : Nat} (hn : n < 128) (hc0 : (m0.ram COLCRS).toNat + n < 128) (hy : m.y = BitVec.ofNat 8 (n + 1)) (hc : (m.ram COLCRS).toNat = (m0.ram COLCRS).toNat + (n + 1)) (hf : InFr m0 m) (hi : m.inv = m0.inv) :
    ∃ m', Reach txCode txCode.in_del m txCode.in_key m' ∧ m'.y = BitVec.ofNat 8 n ∧ (m'.ram COLCRS).toNat = (m0.ram COLCRS).toNat + n ∧ InFr m0 m' ∧ m'.inv = m0.inv ∧
      (∀ a : W, a.toNat ≠ inStart m0 + (n + 1) → a ∉ [gTmp4, gTmp41, COLCRS] → m'.ram a = m.ram a) := by
  have hg := h0.col
  have hy1 : m.y - 1#8 = BitVec.ofNat 8 n := by
    rw [hy]; apply BitVec.eq_of_toNat_eq; simp [BitVec.toNat_sub]; omega
  have ht : topBit (BitVec.ofNat 8 n) = false := by simp [topBit]; omega
  obtain ⟨m1, r1, e1⟩ : ∃ m1, Reach txCode txCode.in_del m txCode.putc m1 ∧ m1 = { m with a := 32#8, y := BitVec.ofNat 8 n, z := false, n := false, stk := .ret (.lb "in_3" :: txCode.in_3) :: m.stk } := by
    refine ⟨_, ⟨4, ?_⟩, rfl⟩
    rt_exec [txCode.in_del.eq, hy1, ht]
    rfl
  have fr1 : InFr m0 m1 := by rw [e1]; exact hf
  obtain ⟨m2, r2, s2, v2, c2, f2, sc2, o2⟩ := in_put h0 fr1 _ _ (by rw [e1]) (by rw [e1]; show (32#8 : B) ≠ 155; decide) (q := n + 1) (by rw [e1]; exact hc) (by omega)
  have o2 : ∀ a : W, a.toNat ≠ inStart m0 + (n + 1) → a ∉ [gTmp4, gTmp41, COLCRS] → m2.ram a = m.ram a := fun a h1 h2 => by rw [o2 a h1 h2, e1]
  rw [e1] at v2
  simp only [M.txv, Prod.mk.injEq] at v2
  simp only [M.inv, Prod.mk.injEq] at hi
  have hcc : (m2.ram COLCRS - 1#8 - 1#8).toNat = (m0.ram COLCRS).toNat + n := by
    rw [BitVec.toNat_sub, BitVec.toNat_sub, c2]; simp; omega
  have ht2 : topBit (m2.ram COLCRS - 1#8 - 1#8) = false := by
    simp only [topBit, hcc]; simp; omega
  refine ⟨?_, r1.trans (r2.trans ⟨4, ?_⟩), ?_⟩
  rotate_left
  · rt_exec [txCode.in_3.eq, upd_app, ht2]
    rfl
  · refine ⟨v2.1, ?_, ?_, ?_, ?_⟩
    · dsimp only
      rw [upd_at, hcc]
    · intro a h1 h2 h3
      dsimp only
      rw [upd_ne (fun e => h1 (by simp [e])), upd_ne (fun e => h1 (by simp [e])), f2 a h1 h2 h3]
    · simp only [M.inv, v2, hi, s2]
    · intro a h1 h2
      dsimp only
      rw [upd_ne (fun e => h2 (by simp [e])), upd_ne (fun e => h2 (by simp [e])), o2 a h1 h2]

/-- The key and the table. -/
theorem in_trans {m : M} {d : Nat} (hd : m.a.toNat % 16 = d) (h15 : d < 15) (ht : RomTab m.ram inTrans transTab) :
    m.a &&& 15#8 = BitVec.ofNat 8 d ∧ m.ram (idx inTrans (BitVec.ofNat 8 d)) = transTab.getD d 0 := by
  have e : (m.a &&& 15#8).toNat = m.a.toNat % 16 := by
    rw [BitVec.toNat_and]; exact Nat.and_two_pow_sub_one_eq_mod _ 4
  have e2 : (BitVec.ofNat 8 d).toNat = d := by rw [BitVec.toNat_ofNat]; omega
  refine ⟨BitVec.eq_of_toNat_eq (by rw [e, e2, hd]), ?_⟩
  have := ht (BitVec.ofNat 8 d) (by rw [e2]; exact h15)
  rw [e2] at this
  exact this

theorem inS_del {m0 m : M} {mx : Nat} {s : List B} (h0 : InOk m0) (hm : mx < 128) (hc0 : (m0.ram COLCRS).toNat + mx < 128) (h : InS m0 mx s m) (hd : m.a.toNat % 16 = 14)
    (ht : RomTab m.ram inTrans transTab) : ∃ m', Reach txCode txCode.in_2 m txCode.in_key m' ∧ InS m0 mx s.dropLast m' := by
  obtain ⟨e1, e2⟩ := in_trans hd (by decide) ht
  have e1 : m.a &&& 15#8 = 14#8 := e1
  have e2 : m.ram (idx inTrans 14#8) = 0x80#8 := e2
  have hs0 := (inCell_toNat h0 (i := 0) (by omega)).2
  have hl := h.len
  obtain ⟨m1, r1, s1⟩ : ∃ m1, Reach txCode txCode.in_2 m txCode.in_del m1 ∧ m1 = { m with a := 0x80#8, x := 14#8, z := false, n := true } := by
    refine ⟨_, ⟨6, ?_⟩, rfl⟩
    rt_exec [txCode.in_2.eq, e1, e2, topBit]
  rcases Nat.eq_zero_or_pos s.length with hz | hz
  · have hs : s = [] := List.length_eq_zero_iff.mp hz
    subst hs
    have hy : m.y = 0#8 := h.y
    refine ⟨?_, r1.trans ⟨4, ?_⟩, ?_⟩
    rotate_left
    · rt_exec [s1, txCode.in_del.eq, txCode.EXE_INPUT_STR.eq, hy, topBit]
      rfl
    · exact ⟨hl, rfl, fun i hi => by simp at hi, h.col, fun i hi => by simp at hi, h.ch, h.fr, h.inv⟩
  · obtain ⟨n, hn⟩ : ∃ n, s.length = n + 1 := ⟨s.length - 1, by omega⟩
    obtain ⟨m2, r2, y2, c2, f2, i2, o2⟩ := in_del (m := m1) h0 (n := n) (by omega) (by omega) (by rw [s1, ← hn]; exact h.y) (by rw [s1, ← hn]; exact h.col) (by rw [s1]; exact h.fr) (by rw [s1]; exact h.inv)
    have o2 : ∀ a : W, a.toNat ≠ inStart m0 + (n + 1) → a ∉ [gTmp4, gTmp41, COLCRS] → m2.ram a = m.ram a := fun a h1 h2 => by rw [o2 a h1 h2, s1]
    refine ⟨m2, r1.trans r2, by simp; omega, by rw [y2]; simp [hn], fun i hi => ?_, by rw [c2]; simp [hn], fun i hi => ?_, by rw [o2 _ (by show 0x6D ≠ _; omega) (by decide)]; exact h.ch, f2, i2⟩
    rotate_left
    · simp at hi
      have hb := inCell_notin h0 (i := i) (by omega)
      have ht := inCell_toNat h0 (i := i) (by omega)
      rw [o2 _ (by omega) (notin3 hb), h.scr i (by omega)]
      simp
    simp at hi
    have hb := buf_notin (i := i) (by omega)
    have ht := buf_toNat (i := i) (by omega)
    rw [o2 _ (by omega) (notin3 hb), h.buf i (by omega)]
    simp

/-- A key that ends the input. -/
theorem inS_ret {m0 m : M} {mx : Nat} {s : List B} (h : InS m0 mx s m) (hd : m.a.toNat % 16 = 12 ∨ m.a.toNat % 16 = 13)
    (ht : RomTab m.ram inTrans transTab) : ∃ m', Halts txCode txCode.in_2 m m' ∧ m'.a = 0 ∧ m'.x = 6 ∧ m'.ram = upd m.ram lineBuf (BitVec.ofNat 8 s.length) ∧ m'.inv = m0.inv := by
  have hy := h.y
  rcases hd with hd | hd
  · obtain ⟨e1, e2⟩ := in_trans hd (by decide) ht
    have e1 : m.a &&& 15#8 = 12#8 := e1
    have e2 : m.ram (idx inTrans 12#8) = 0#8 := e2
    refine ⟨?_, ⟨8, ?_⟩, ?_⟩
    rotate_left
    · rt_exec [txCode.in_2.eq, txCode.in_ret.eq, e1, e2, hy]
      rfl
    · exact ⟨rfl, rfl, rfl, h.inv⟩
  · obtain ⟨e1, e2⟩ := in_trans hd (by decide) ht
    have e1 : m.a &&& 15#8 = 13#8 := e1
    have e2 : m.ram (idx inTrans 13#8) = 0#8 := e2
    refine ⟨?_, ⟨8, ?_⟩, ?_⟩
    rotate_left
    · rt_exec [txCode.in_2.eq, txCode.in_ret.eq, e1, e2, hy]
      rfl
    · exact ⟨rfl, rfl, rfl, h.inv⟩

/-- A key with a character. -/
theorem inS_ok {m0 m : M} {s : List B} (h0 : InOk m0) (hc0 : (m0.ram COLCRS).toNat + maxLen (m.ram inWidth).toNat < 128) (h : InS m0 (maxLen (m.ram inWidth).toNat) s m) (hd : m.a.toNat % 16 < 12)
    (ht : RomTab m.ram inTrans transTab) : ∃ m', Reach txCode txCode.in_2 m txCode.in_key m' ∧
      InS m0 (maxLen (m.ram inWidth).toNat) (if s.length < maxLen (m.ram inWidth).toNat then s ++ [keyChar (m.a.toNat % 16)] else s) m' := by
  have hm : maxLen (m.ram inWidth).toNat < 128 := by unfold maxLen; split <;> omega
  generalize hdd : m.a.toNat % 16 = d at hd
  obtain ⟨e1, e2⟩ := in_trans hdd (by omega) ht
  have hk : ∀ d, d < 12 → transTab.getD d 0 = keyChar d ∧ topBit (keyChar d) = false ∧ keyChar d ≠ 0#8 ∧ keyChar d ≠ 155 := by decide
  obtain ⟨k1, k2, k3, k4⟩ := hk d hd
  have hs0 := (inCell_toNat h0 (i := 0) (by omega)).2
  rw [k1] at e2
  have hl := h.len
  have hy := h.y
  have hyn : (BitVec.ofNat 8 s.length).toNat = s.length := by rw [BitVec.toNat_ofNat]; omega
  have hidx : idx 0x601#16 (BitVec.ofNat 8 s.length) = 0x601#16 + BitVec.ofNat 16 s.length := by rw [idx, hyn]
  obtain ⟨m1, r1, s1⟩ : ∃ m1, Reach txCode txCode.in_2 m txCode.putc m1 ∧ m1 = { m with a := keyChar d, x := BitVec.ofNat 8 d, z := false, n := false, ram := upd m.ram (0x601#16 + BitVec.ofNat 16 s.length) (keyChar d), stk := .ret (.lb "in_4" :: txCode.in_4) :: m.stk } := by
    refine ⟨_, ⟨7, ?_⟩, rfl⟩
    rt_exec [txCode.in_2.eq, txCode.in_ok.eq, e1, e2, k2, k3, hy, hidx]
  have hbt := buf_toNat (i := s.length) (by omega)
  have hbn := buf_notin (i := s.length) (by omega)
  have fr1 : InFr m0 m1 := by
    intro a h1 h2 h3
    rw [s1]
    dsimp only
    rw [upd_ne (fun e => by rw [e, hbt] at h2; omega), h.fr a h1 h2 h3]
  have hc1 : (m1.ram COLCRS).toNat = (m0.ram COLCRS).toNat + s.length := by
    rw [s1]; dsimp only
    rw [upd_ne (fun e => hbn (by rw [← e]; decide)), h.col]
  obtain ⟨m2, r2, s2, v2, c2, f2, sc2, o2⟩ := in_put h0 fr1 _ _ (by rw [s1]) (by rw [s1]; exact k4) (q := s.length) hc1 (by omega)
  have hiv := h.inv
  have b2 : ∀ i (hi : i < (s ++ [keyChar d]).length), m2.ram (0x601#16 + BitVec.ofNat 16 i) = (s ++ [keyChar d])[i] := by
    intro i hi
    simp at hi
    have hb := buf_notin (i := i) (by omega)
    have hbt' := buf_toNat (i := i) (by omega)
    rw [o2 _ (by omega) (notin3 hb), s1]
    dsimp only
    by_cases hi2 : i = s.length
    · subst hi2; rw [upd_at]; simp
    · rw [upd_ne (fun e => by rw [e] at hbt'; omega), h.buf i (by omega), List.getElem_append_left (by omega)]
  have sc3 : ∀ i (hi : i < (s ++ [keyChar d]).length), m2.ram (inCell m0 i) = toScreen (s ++ [keyChar d])[i] := by
    intro i hi
    simp at hi
    have hb := inCell_notin h0 (i := i) (by omega)
    have hbt' := inCell_toNat h0 (i := i) (by omega)
    by_cases hi2 : i = s.length
    · subst hi2; rw [sc2, s1]; simp
    · rw [o2 _ (by omega) (notin3 hb), s1]
      dsimp only
      rw [upd_ne (fun e => by rw [e] at hbt'; omega), h.scr i (by omega), List.getElem_append_left (by omega)]
  have ch2 : m2.ram kbCH = 0xFF := by
    rw [o2 _ (by show 0x6D ≠ _; omega) (by decide), s1]
    dsimp only
    rw [upd_ne (fun e => hbn (by rw [← e]; decide)), h.ch]
  have w2 : m2.ram inWidth = m.ram inWidth := by
    rw [o2 _ (by show 0x700 ≠ _; omega) (by decide), s1]
    dsimp only
    rw [upd_ne (fun e => by have := congrArg BitVec.toNat e; rw [hbt] at this; simp at this; omega)]
  rw [s1] at v2
  simp only [M.txv, Prod.mk.injEq] at v2
  simp only [M.inv, Prod.mk.injEq] at hiv
  have hinv2 : m2.inv = m0.inv := by simp only [M.inv, v2, hiv, s2]
  have hy2 : m2.y + 1#8 = BitVec.ofNat 8 (s.length + 1) := by
    rw [v2.1, hy]; apply BitVec.eq_of_toNat_eq; simp
  have hy2n : (BitVec.ofNat 8 (s.length + 1)).toNat = s.length + 1 := by rw [BitVec.toNat_ofNat]; omega
  by_cases hmx : s.length < maxLen (m.ram inWidth).toNat
  · rw [if_pos hmx]
    have t1 : topBit (BitVec.ofNat 8 (s.length + 1)) = false := by
      simp only [topBit, hy2n]; simp; omega
    have t2 : ¬ (BitVec.ofNat 8 (s.length + 1) - m.ram inWidth = 0#8) := fun e => by
      have e : BitVec.ofNat 8 (s.length + 1) = m.ram inWidth := by generalize m.ram inWidth = q at e; bv_omega
      rw [← e, hy2n] at hmx
      unfold maxLen at hmx
      split at hmx <;> omega
    refine ⟨?_, r1.trans (r2.trans ⟨5, ?_⟩), ?_⟩
    rotate_left
    · rt_exec [txCode.in_4.eq, hy2, t1, t2, w2]
      rfl
    · exact ⟨by simp; omega, by simp, b2, by simp; exact c2, sc3, ch2, f2, hinv2⟩
  · rw [if_neg hmx]
    have hln : s.length = maxLen (m.ram inWidth).toNat := by omega
    obtain ⟨m3, r3, s3⟩ : ∃ m3, Reach txCode (.lb "in_4" :: txCode.in_4) m2 txCode.in_del m3 ∧ m3.y = BitVec.ofNat 8 (s.length + 1) ∧ m3.ram = m2.ram ∧ m3.inv = m2.inv := by
      by_cases h128 : s.length + 1 = 128
      · have t1 : topBit (BitVec.ofNat 8 (s.length + 1)) = true := by
          simp only [topBit, hy2n]; simp; omega
        refine ⟨?_, ⟨3, ?_⟩, ?_⟩
        rotate_left
        · rt_exec [txCode.in_4.eq, hy2, t1]
          rfl
        · exact ⟨rfl, rfl, rfl⟩
      · have t1 : topBit (BitVec.ofNat 8 (s.length + 1)) = false := by
          simp only [topBit, hy2n]; simp; omega
        have t2 : BitVec.ofNat 8 (s.length + 1) - m.ram inWidth = 0#8 := by
          have e : BitVec.ofNat 8 (s.length + 1) = m.ram inWidth := by
            apply BitVec.eq_of_toNat_eq
            rw [hy2n]
            unfold maxLen at hln
            split at hln <;> omega
          rw [e, BitVec.sub_self]
        refine ⟨?_, ⟨6, ?_⟩, ?_⟩
        rotate_left
        · rt_exec [txCode.in_4.eq, hy2, t1, t2, w2]
          rfl
        · exact ⟨rfl, rfl, rfl⟩
    obtain ⟨y3, u3, i3⟩ := s3
    obtain ⟨m4, r4, y4, c4, f4, i4, o4⟩ := in_del (m := m3) h0 (n := s.length) (by omega) (by omega) y3 (by rw [u3]; exact c2) (fun a h1 h2 h3 => by rw [u3]; exact f2 a h1 h2 h3) (i3.trans hinv2)
    refine ⟨m4, r1.trans (r2.trans (r3.trans r4)), hl, y4, fun i hi => ?_, c4, fun i hi => ?_, by rw [o4 _ (by show 0x6D ≠ _; omega) (by decide), u3]; exact ch2, f4, i4⟩
    rotate_left
    · have hb := inCell_notin h0 (i := i) (by omega)
      have hbt' := inCell_toNat h0 (i := i) (by omega)
      rw [o4 _ (by omega) (notin3 hb), u3, sc3 i (by simp; omega), List.getElem_append_left (by omega)]
    have hb := buf_notin (i := i) (by omega)
    have hbt' := buf_toNat (i := i) (by omega)
    rw [o4 _ (by omega) (notin3 hb), u3, b2 i (by simp; omega), List.getElem_append_left (by omega)]

theorem Typed.after {ks : List B} {k k' : Code} {m m1 m' : M} (h : Reach txCode k m k' m1) (t : Typed ks k' m1 m') : Typed ks k m m' := by
  cases t with
  | done t => exact .done (h.halts t)
  | press r c t => exact .press (h.trans r) c t

theorem in_rom {m0 m : M} (h0 : InOk m0) (hf : InFr m0 m) : m.ram inWidth = m0.ram inWidth ∧ (RomTab m0.ram inTrans transTab → RomTab m.ram inTrans transTab) := by
  have hh : inStart m0 = rowStart m0.ram (m0.ram ROWCRS).toNat + (m0.ram COLCRS).toNat := rfl
  obtain ⟨g1, g2, g3, g4⟩ := h0
  refine ⟨hf _ (by decide) (Or.inr (by decide)) (Or.inl ?_), fun ht i hi => ?_⟩
  · show 0x700 < _; omega
  · have hi' : i.toNat < 15 := hi
    have e : (idx inTrans i).toNat = 0xB080 + i.toNat := by
      rw [idx, BitVec.toNat_add, BitVec.toNat_ofNat]
      show (0xB080 + i.toNat % 65536) % 65536 = _
      omega
    rw [hf _ _ (Or.inr (by omega)) (Or.inr (by omega))]
    · exact ht i hi
    · simp only [List.mem_cons, List.not_mem_nil, or_false, not_or]
      refine ⟨?_, ?_, ?_, ?_⟩ <;> (intro e'; rw [e'] at e; simp at e; omega)

theorem in_main {m0 : M} (h0 : InOk m0) (hc0 : (m0.ram COLCRS).toNat + maxLen (m0.ram inWidth).toNat < 128) (ht : RomTab m0.ram inTrans transTab) (kr : B) (hr : kr.toNat % 16 = 12 ∨ kr.toNat % 16 = 13)
    (ks : List B) (hk : ∀ k ∈ ks, k.toNat % 16 < 12 ∨ k.toNat % 16 = 14) : ∀ (s : List B) (m : M), InS m0 (maxLen (m0.ram inWidth).toNat) s m →
    ∃ m2 m', InS m0 (maxLen (m0.ram inWidth).toNat) (editKeys (maxLen (m0.ram inWidth).toNat) s ks) m2 ∧ Typed (ks ++ [kr]) txCode.in_key m m' ∧ m'.a = 0 ∧ m'.x = 6 ∧
      m'.ram = upd m2.ram lineBuf (BitVec.ofNat 8 (editKeys (maxLen (m0.ram inWidth).toNat) s ks).length) ∧ m'.inv = m0.inv ∧
      m2.ram (inCell m0 (editKeys (maxLen (m0.ram inWidth).toNat) s ks).length) = toScreen 0xDF := by
  have hm : maxLen (m0.ram inWidth).toNat < 128 := by unfold maxLen; split <;> omega
  have hff : ∀ c : B, c.toNat % 16 ≠ 15 → c ≠ 0xFF := fun c h e => h (by rw [e]; rfl)
  induction ks with
  | nil =>
    intro s m h
    obtain ⟨m1, r1, i1, k1, q1⟩ := in_wait h0 hm h
    obtain ⟨m2, r2, i2, a2, q2⟩ := in_press i1 k1 kr (hff _ (by omega))
    obtain ⟨m3, r3, a3, x3, u3, v3⟩ := inS_ret i2 (by rw [a2]; exact hr) ((in_rom h0 i2.fr).2 ht)
    exact ⟨m2, m3, i2, .press r1 i1.ch (.done (r2.halts r3)), a3, x3, u3, v3, by rw [q2]; exact q1⟩
  | cons c ks ih =>
    intro s m h
    have hc := hk c (by simp)
    obtain ⟨m1, r1, i1, k1, q1⟩ := in_wait h0 hm h
    obtain ⟨m2, r2, i2, a2, q2⟩ := in_press i1 k1 c (hff _ (by omega))
    obtain ⟨hw, hrt⟩ := in_rom h0 i2.fr
    have hrt := hrt ht
    have step : ∃ m3 s', Reach txCode txCode.in_2 m2 txCode.in_key m3 ∧ InS m0 (maxLen (m0.ram inWidth).toNat) s' m3 ∧
        editKeys (maxLen (m0.ram inWidth).toNat) s (c :: ks) = editKeys (maxLen (m0.ram inWidth).toNat) s' ks := by
      by_cases h14 : c.toNat % 16 = 14
      · obtain ⟨m3, r3, i3⟩ := inS_del h0 hm hc0 i2 (by rw [a2]; exact h14) hrt
        exact ⟨m3, _, r3, i3, by rw [editKeys, if_pos h14]⟩
      · rw [← hw] at hc0 i2 ⊢
        obtain ⟨m3, r3, i3⟩ := inS_ok h0 hc0 i2 (by rw [a2]; omega) hrt
        refine ⟨m3, _, r3, i3, ?_⟩
        rw [editKeys, if_neg h14, a2]
        split <;> rfl
    obtain ⟨m3, s', r3, i3, e3⟩ := step
    obtain ⟨m4, m', i4, t4, rest⟩ := ih (fun k h => hk k (by simp [h])) s' m3 i3
    rw [e3]
    exact ⟨m4, m', i4, .press r1 i1.ch (t4.after (r2.trans r3)), rest⟩

/-- **C61**. With any keys of characters and of deletion pressed, and then a key that ends the input, `INPUT` returns the address of the buffer, that has the length and the characters of the text
edited with those keys; the text is on the screen from the place of the cursor, followed by the mark of the cursor, and the column moves by the length. Only the buffer, the screen from the cursor on, the column and the last key are written (and two temporaries): never more than 128
characters of the buffer. -/
theorem C61_input (m0 : M) (h0 : InOk m0) (hc0 : (m0.ram COLCRS).toNat + maxLen (m0.ram inWidth).toNat < 128) (ht : RomTab m0.ram inTrans transTab) (hch : m0.ram kbCH = 0xFF)
    (ks : List B) (hk : ∀ k ∈ ks, k.toNat % 16 < 12 ∨ k.toNat % 16 = 14) (kr : B) (hr : kr.toNat % 16 = 12 ∨ kr.toNat % 16 = 13) :
    ∃ m' s, s = editKeys (maxLen (m0.ram inWidth).toNat) [] ks ∧ Typed (ks ++ [kr]) txCode.EXE_INPUT_STR m0 m' ∧ word m'.a m'.x = lineBuf ∧ (m'.ram lineBuf).toNat = s.length ∧
      (∀ i (h : i < s.length), m'.ram (lineBuf + 1 + BitVec.ofNat 16 i) = s[i]) ∧ (m'.ram COLCRS).toNat = (m0.ram COLCRS).toNat + s.length ∧
      (∀ i (h : i < s.length), m'.ram (inCell m0 i) = toScreen s[i]) ∧ m'.ram (inCell m0 s.length) = toScreen 0xDF ∧ InFr m0 m' ∧ m'.inv = m0.inv := by
  obtain ⟨m1, r1, e1⟩ : ∃ m1, Reach txCode txCode.EXE_INPUT_STR m0 txCode.in_key m1 ∧ m1 = { m0 with y := 0#8, z := true, n := false } := by
    refine ⟨_, ⟨2, ?_⟩, rfl⟩
    rt_exec [txCode.EXE_INPUT_STR.eq, topBit]
  have hm : maxLen (m0.ram inWidth).toNat < 128 := by unfold maxLen; split <;> omega
  obtain ⟨m2, m', i2, t, a, x, u, v, q⟩ := in_main h0 hc0 ht kr hr ks hk [] m1 (by
    rw [e1]; exact ⟨Nat.zero_le _, rfl, fun i h => by simp at h, rfl, fun i h => by simp at h, hch, fun _ _ _ _ => rfl, rfl⟩)
  have hl := i2.len
  refine ⟨m', _, rfl, t.after r1, by rw [a, x]; rfl, ?_, fun i hi => ?_, ?_, fun i hi => ?_, ?_, fun q h1 h2 h3 => ?_, v⟩
  · rw [u, upd_at, BitVec.toNat_ofNat]; omega
  · have hb := buf_toNat (i := i) (by omega)
    show m'.ram (0x601#16 + BitVec.ofNat 16 i) = _
    rw [u, upd_ne (fun e => by rw [e] at hb; simp at hb; omega), i2.buf i hi]
  · rw [u, upd_ne (by decide), i2.col]
  · have hb := inCell_toNat h0 (i := i) (by omega)
    rw [u, upd_ne (fun e => by rw [e] at hb; simp at hb; omega), i2.scr i hi]
  · have hb := inCell_toNat h0 (i := (editKeys (maxLen (m0.ram inWidth).toNat) [] ks).length) (by omega)
    rw [u, upd_ne (fun e => by rw [e] at hb; simp at hb; omega), q]
  · rw [u, upd_ne (fun e => by rw [e] at h2; revert h2; decide), i2.fr q h1 h2 h3]

/-! ## A case -/

/-- A memory with the screen at `$2000`, the cursor at column 2 of row 3, and an `INPUT_WIDTH` of 4. -/
def exIn (a : W) : B :=
  if 0xB080 ≤ a.toNat then transTab.getD (a.toNat - 0xB080) 0 else if a = SAVMSC1 then 0x20 else if a = ROWCRS then 3 else if a = COLCRS then 2 else if a = inWidth then 4 else if a = kbCH then 0xFF else 0

theorem exIn_tab : RomTab exIn inTrans transTab := by
  have h : ∀ i : B, i.toNat < 15 → exIn (idx inTrans i) = transTab.getD i.toNat 0 := by decide +kernel
  exact fun i hi => h i hi

/-- The keys 1, 2, `RESET`, 7, `#`, 9 and `START`: the text is `17#`, as the 9 has no place. -/
example (m0 : M) (hr : m0.ram = exIn) : ∃ m', Typed ([1, 2, 14, 7, 11, 9] ++ [12]) txCode.EXE_INPUT_STR m0 m' ∧ m'.ram lineBuf = 3 ∧ m'.ram 0x601 = 49 ∧ m'.ram 0x602 = 55 ∧ m'.ram 0x603 = 35 ∧ m'.ram COLCRS = 5 ∧
    m'.ram 0x207A = 17 ∧ m'.ram 0x207B = 23 ∧ m'.ram 0x207C = 3 := by
  have hok : InOk m0 := ⟨by rw [hr]; decide, by rw [hr]; decide, by rw [hr]; decide, by rw [hr]; decide⟩
  have hmx : maxLen (m0.ram inWidth).toNat = 3 := by rw [hr]; decide
  obtain ⟨m', s, hs, t, -, l, b, c, sc, -⟩ := C61_input m0 hok (by rw [hr]; decide) (by rw [hr]; exact exIn_tab) (by rw [hr]; rfl) [1, 2, 14, 7, 11, 9] (by decide) 12 (Or.inl rfl)
  have hs : s = [49, 55, 35] := by rw [hs, hmx]; decide
  subst hs
  have hcell : ∀ i, i < 3 → inCell m0 i = 0x207A#16 + BitVec.ofNat 16 i := by
    intro i hi
    have : ∀ i, i < 3 → cellAt exIn (exIn ROWCRS).toNat ((exIn COLCRS).toNat + i) = 0x207A#16 + BitVec.ofNat 16 i := by decide
    rw [inCell, hr, this i hi]
  have s0 := sc 0 (by decide)
  have s1 := sc 1 (by decide)
  have s2 := sc 2 (by decide)
  rw [hcell _ (by decide)] at s0 s1 s2
  refine ⟨m', t, BitVec.eq_of_toNat_eq l, b 0 (by decide), b 1 (by decide), b 2 (by decide), BitVec.eq_of_toNat_eq (by rw [c, hr]; rfl), s0, s1, s2⟩

end FB.Rt
