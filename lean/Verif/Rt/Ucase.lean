import Verif.Rt.Names
/-!
# Conversion of a line to upper case

`ucase_line` of `/repo/src/parse.asm` is `ucase` in `Verif.Rt.Mem`.
-/
namespace FB.Rt
open Ins Opd

/-- Registers and memory change. -/
def RegRam (m m' : M) (r : W → B) : Prop := ∃ a c z n v x y, m' = { m with a := a, c := c, z := z, n := n, v := v, x := x, y := y, ram := r }

/-- The destination of the next character. -/
def M.dst (m : M) : W := idx (word m.zp.inb m.zp.inbh) (m.y + 1#8)

theorem uc_eol (m : M) (hb : m.ram (idx (word m.zp.bufp m.zp.bufph) (m.y + 1#8)) = 0x9B#8) :
    ∃ m', Reach memCode memCode.uc_loop m memCode.uc_end m' ∧ m'.y = m.y + 1#8 ∧ m'.c = true ∧ RegRam m m' (upd m.ram m.dst 0x9B#8) := by
  refine ⟨?_, ⟨6, ?_⟩, ?_⟩
  rotate_left
  · rt_exec [memCode.uc_loop.eq, memCode.uc_redo.eq, hb]
    rfl
  · exact ⟨rfl, rfl, _, _, _, _, _, _, _, rfl⟩

theorem uc_quote0 (m : M) (hx : m.x = 0#8) (hb : m.ram (idx (word m.zp.bufp m.zp.bufph) (m.y + 1#8)) = 0x22#8) :
    ∃ m', Reach memCode memCode.uc_loop m memCode.uc_loop m' ∧ m'.y = m.y + 1#8 ∧ m'.x = 1#8 ∧ RegRam m m' (upd m.ram m.dst 0x22#8) := by
  refine ⟨?_, ⟨14, ?_⟩, ?_⟩
  rotate_left
  · rt_exec [memCode.uc_loop.eq, memCode.uc_redo.eq, memCode.uc_skip.eq, hb, hx]
    rfl
  · exact ⟨rfl, rfl, _, _, _, _, _, _, _, rfl⟩

theorem uc_quote1 (m : M) (hx : m.x = 1#8) (hb : m.ram (idx (word m.zp.bufp m.zp.bufph) (m.y + 1#8)) = 0x22#8) :
    ∃ m', Reach memCode memCode.uc_loop m memCode.uc_loop m' ∧ m'.y = m.y + 1#8 ∧ m'.x = 0#8 ∧ RegRam m m' (upd m.ram m.dst 0x22#8) := by
  have f1 : addC 0#8 254#8 true = false := rfl
  have f2 : addC (add8 0#8 159#8 false) 229#8 true = true := rfl
  refine ⟨?_, ⟨17, ?_⟩, ?_⟩
  rotate_left
  · rt_exec [memCode.uc_loop.eq, memCode.uc_redo.eq, memCode.uc_skip.eq, hb, hx, f1, f2]
    rfl
  · exact ⟨rfl, rfl, _, _, _, _, _, _, _, rfl⟩

theorem uc_str (m : M) (c : B) (hx : m.x = 1#8) (hb : m.ram (idx (word m.zp.bufp m.zp.bufph) (m.y + 1#8)) = c) (h1 : ¬ c - 0x9B#8 = 0#8) (h2 : ¬ c - 0x22#8 = 0#8) :
    ∃ m', Reach memCode memCode.uc_loop m memCode.uc_loop m' ∧ m'.y = m.y + 1#8 ∧ m'.x = 1#8 ∧ RegRam m m' (upd m.ram m.dst c) := by
  refine ⟨?_, ⟨10, ?_⟩, ?_⟩
  rotate_left
  · rt_exec [memCode.uc_loop.eq, memCode.uc_redo.eq, memCode.uc_skip.eq, hb, hx, h1, h2]
    rfl
  · exact ⟨rfl, rfl, _, _, _, _, _, _, _, rfl⟩

theorem uc_other (m : M) (c : B) (hx : m.x = 0#8) (hb : m.ram (idx (word m.zp.bufp m.zp.bufph) (m.y + 1#8)) = c) (h1 : ¬ c - 0x9B#8 = 0#8) (h2 : ¬ c - 0x22#8 = 0#8)
    (h3 : addC (add8 c 159#8 false) 229#8 true = true) :
    ∃ m', Reach memCode memCode.uc_loop m memCode.uc_loop m' ∧ m'.y = m.y + 1#8 ∧ m'.x = 0#8 ∧ RegRam m m' (upd m.ram m.dst c) := by
  have f1 : addC 0#8 254#8 true = false := rfl
  refine ⟨?_, ⟨13, ?_⟩, ?_⟩
  rotate_left
  · rt_exec [memCode.uc_loop.eq, memCode.uc_redo.eq, memCode.uc_skip.eq, hb, hx, h1, h2, h3, f1]
    rfl
  · exact ⟨rfl, rfl, _, _, _, _, _, _, _, rfl⟩

theorem uc_lower1 (m : M) (c : B) (hx : m.x = 0#8) (hb : m.ram (idx (word m.zp.bufp m.zp.bufph) (m.y + 1#8)) = c) (h1 : ¬ c - 0x9B#8 = 0#8) (h2 : ¬ c - 0x22#8 = 0#8)
    (h3 : addC (add8 c 159#8 false) 229#8 true = false) (h4 : addC (add8 c 159#8 false) 65#8 false = false) :
    ∃ m', Reach memCode memCode.uc_loop m memCode.uc_redo m' ∧ m'.y = m.y + 1#8 ∧ m'.x = 0#8 ∧ m'.a = add8 (add8 c 159#8 false) 65#8 false ∧ RegRam m m' (upd m.ram m.dst c) := by
  have f1 : addC 0#8 254#8 true = false := rfl
  refine ⟨?_, ⟨15, ?_⟩, ?_⟩
  rotate_left
  · rt_exec [memCode.uc_loop.eq, memCode.uc_redo.eq, memCode.uc_skip.eq, hb, hx, h1, h2, h3, h4, f1]
    rfl
  · exact ⟨rfl, rfl, rfl, _, _, _, _, _, _, _, rfl⟩

theorem uc_lower2 (m : M) (c : B) (hx : m.x = 0#8) (ha : m.a = c) (h1 : ¬ c - 0x9B#8 = 0#8) (h2 : ¬ c - 0x22#8 = 0#8)
    (h3 : addC (add8 c 159#8 false) 229#8 true = true) :
    ∃ m', Reach memCode memCode.uc_redo m memCode.uc_loop m' ∧ m'.y = m.y ∧ m'.x = 0#8 ∧ RegRam m m' (upd m.ram (idx (word m.zp.inb m.zp.inbh) m.y) c) := by
  have f1 : addC 0#8 254#8 true = false := rfl
  refine ⟨?_, ⟨10, ?_⟩, ?_⟩
  rotate_left
  · rt_exec [memCode.uc_redo.eq, memCode.uc_skip.eq, ha, hx, h1, h2, h3, f1]
    rfl
  · exact ⟨rfl, rfl, _, _, _, _, _, _, _, rfl⟩

/-- A small letter. -/
def Small (c : B) : Prop := 97 ≤ c.toNat ∧ c.toNat ≤ 122

instance (c : B) : Decidable (Small c) := by unfold Small; infer_instance

/-- The character as it is stored, outside strings. -/
def up (c : B) : B := if Small c then c - 32#8 else c

/-- A line in upper case; `q` tells if we are inside a string. -/
def upper : Bool → List B → List B
  | _, [] => []
  | q, c :: l => if c = 0x22#8 then c :: upper (!q) l else (if q then c else up c) :: upper q l

/-- State of the register `X`. -/
def qx (q : Bool) : B := if q then 1#8 else 0#8

theorem upd_upd (r : W → B) (a : W) (b c : B) : upd (upd r a b) a c = upd r a c := by
  funext x; simp only [upd]; split <;> rfl

/-- One character that is not the end of the line. -/
theorem uc_char (m : M) (q : Bool) (c : B) (hx : m.x = qx q) (hb : m.ram (idx (word m.zp.bufp m.zp.bufph) (m.y + 1#8)) = c) (hc : c ≠ 0x9B#8) :
    ∃ m', Reach memCode memCode.uc_loop m memCode.uc_loop m' ∧ m'.y = m.y + 1#8 ∧ m'.x = qx (if c = 0x22#8 then !q else q) ∧
      RegRam m m' (upd m.ram m.dst (if c = 0x22#8 then c else if q then c else up c)) := by
  have h1 : ¬ c - 0x9B#8 = 0#8 := fun h => hc ((sub_eq_zero8 _ _).1 h)
  have hcl := c.isLt
  by_cases h : c = 0x22#8
  · subst h
    cases q
    · obtain ⟨m', r, y, x, k⟩ := uc_quote0 m hx hb
      exact ⟨m', r, y, x, k⟩
    · obtain ⟨m', r, y, x, k⟩ := uc_quote1 m hx hb
      exact ⟨m', r, y, x, k⟩
  · have h2 : ¬ c - 0x22#8 = 0#8 := fun h' => h ((sub_eq_zero8 _ _).1 h')
    rw [if_neg h, if_neg h]
    cases q
    · by_cases hs : Small c
      · have hs' := hs
        unfold Small at hs'
        have e : add8 (add8 c 159#8 false) 65#8 false = c - 32#8 := by
          apply BitVec.eq_of_toNat_eq; simp [BitVec.toNat_sub]; omega
        have en : (c - 32#8).toNat = c.toNat - 32 := by simp [BitVec.toNat_sub]; omega
        obtain ⟨m1, r1, y1, x1, a1, k1⟩ := uc_lower1 m c hx hb h1 h2 (by simp [addC]; omega) (by simp [addC]; omega)
        obtain ⟨_, _, _, _, _, _, _, e1⟩ := id k1
        obtain ⟨m2, r2, y2, x2, k2⟩ := uc_lower2 m1 (c - 32#8) x1 (a1.trans e) (sub_ne8 _ _ (by rw [en]; simp; omega)) (sub_ne8 _ _ (by rw [en]; simp; omega))
          (by simp [addC]; omega)
        obtain ⟨_, _, _, _, _, _, _, e2⟩ := id k2
        refine ⟨m2, r1.trans r2, y2.trans y1, x2, ?_⟩
        have ei : idx (word m1.zp.inb m1.zp.inbh) m1.y = m.dst := by rw [y1, e1]; rfl
        have er : m1.ram = upd m.ram m.dst c := by rw [e1]
        rw [ei, er, upd_upd] at e2
        rw [e2, e1]
        rw [up, if_pos hs]
        exact ⟨_, _, _, _, _, _, _, rfl⟩
      · have hs' := hs
        unfold Small at hs'
        obtain ⟨m', r, y, x, k⟩ := uc_other m c hx hb h1 h2 (by simp [addC]; omega)
        rw [up, if_neg hs]
        exact ⟨m', r, y, x, by simpa using k⟩
    · obtain ⟨m', r, y, x, k⟩ := uc_str m c hx hb h1 h2
      exact ⟨m', r, y, x, k⟩

/-- The pointer to the program text. -/
def M.src (m : M) : W := word m.zp.bufp m.zp.bufph

theorem upper_length (q : Bool) (l : List B) : (upper q l).length = l.length := by
  induction l generalizing q with
  | nil => rfl
  | cons c l ih => simp only [upper]; split <;> simp [ih]

theorem textAt_cons {r : W → B} {p : W} {c : B} {l : List B} (h : r p = c) (t : TextAt r (p + 1#16) l) : TextAt r p (c :: l) := by
  intro i hi
  cases i with
  | zero => simpa using h
  | succ i =>
    have := t i (by simpa using hi)
    rw [show (1#16 : W) = BitVec.ofNat 16 1 from rfl, off_add, Nat.add_comm] at this
    simpa using this

theorem uc_line (l : List B) : ∀ (m : M) (q : Bool) (j : Nat), (m.y + 1#8).toNat = j → m.x = qx q → TextAt m.ram (m.src + BitVec.ofNat 16 j) (l ++ [0x9B#8]) →
    0x9B#8 ∉ l → j + l.length < 256 → (∀ i ≤ j + l.length, ∀ i' ≤ j + l.length, m.src + BitVec.ofNat 16 i ≠ m.bp + BitVec.ofNat 16 i') →
    ∃ m' r', Reach memCode memCode.uc_loop m memCode.uc_end m' ∧ m'.c = true ∧ m'.y.toNat = j + l.length ∧ RegRam m m' r' ∧
      TextAt r' (m.bp + BitVec.ofNat 16 j) (upper q l ++ [0x9B#8]) ∧
      ∀ a : W, (∀ i, j ≤ i → i ≤ j + l.length → a ≠ m.bp + BitVec.ofNat 16 i) → r' a = m.ram a := by
  induction l with
  | nil =>
    intro m q j hy hx ht _ hl hd
    obtain ⟨m', r, y1, c1, k⟩ := uc_eol m (by have := ht.head; rw [idx, hy]; exact this)
    have ed : m.dst = m.bp + BitVec.ofNat 16 j := by rw [M.dst, idx, hy]; rfl
    rw [ed] at k
    refine ⟨m', _, r, c1, by rw [y1, hy]; rfl, k, textAt_cons (upd_at _ _ _) (fun i hi => absurd hi (by simp)), fun a ha => upd_ne (ha j (by omega) (by omega))⟩
  | cons c l ih =>
    intro m q j hy hx ht hn hl hd
    simp only [List.length_cons] at hl hd ⊢
    obtain ⟨m1, r1, y1, x1, k1⟩ := uc_char m q c hx (by have := ht.head; rw [idx, hy]; exact this) (fun h => hn (by simp [h]))
    obtain ⟨_, _, _, _, _, _, _, e1⟩ := id k1
    have ed : m.dst = m.bp + BitVec.ofNat 16 j := by rw [M.dst, idx, hy]; rfl
    have hy1 : (m1.y + 1#8).toNat = j + 1 := by rw [y1]; exact succ_nat _ _ hy (by omega)
    have hs : m1.src = m.src := by rw [e1]; rfl
    have hb : m1.bp = m.bp := by rw [e1]; rfl
    have hr : m1.ram = upd m.ram (m.bp + BitVec.ofNat 16 j) (if c = 0x22#8 then c else if q then c else up c) := by rw [e1, ed]
    have t1 : TextAt m1.ram (m1.src + BitVec.ofNat 16 (j + 1)) (l ++ [0x9B#8]) := by
      intro i hi
      have hi' : i < l.length + 1 := by simpa using hi
      rw [hr, hs, off_add, upd_ne (hd _ (by omega) j (by omega))]
      have := ht.tail i hi
      rw [show (1 : W) = BitVec.ofNat 16 1 from rfl, off_add, off_add, ← Nat.add_assoc] at this
      exact this
    obtain ⟨m2, r', r2, c2, y2, k2, q1, q2⟩ := ih m1 _ (j + 1) hy1 x1 t1 (fun h => hn (by simp [h])) (by omega) (by rw [hs, hb]; exact fun i hi i' hi' => hd i (by omega) i' (by omega))
    obtain ⟨_, _, _, _, _, _, _, e2⟩ := id k2
    rw [hb] at q1 q2
    refine ⟨m2, r', r1.trans r2, c2, by rw [y2]; omega, by rw [e2, e1]; exact ⟨_, _, _, _, _, _, _, rfl⟩, ?_, ?_⟩
    · have h0 : r' (m.bp + BitVec.ofNat 16 j) = if c = 0x22#8 then c else if q then c else up c := by
        rw [q2 _ (fun i h1 h2 => off_ne _ (by omega) (by omega) (by omega)), hr, upd_at]
      have h1 : TextAt r' (m.bp + BitVec.ofNat 16 j + 1#16) (upper (if c = 0x22#8 then !q else q) l ++ [0x9B#8]) := by
        rw [show (1#16 : W) = BitVec.ofNat 16 1 from rfl, off_add]; exact q1
      rw [upper]
      by_cases h : c = 0x22#8
      · rw [if_pos h] at h0 h1 ⊢; exact textAt_cons h0 h1
      · rw [if_neg h] at h0 h1 ⊢; exact textAt_cons h0 h1
    · intro a ha
      rw [q2 a (fun i h1 h2 => ha i (by omega) (by omega)), hr, upd_ne (ha j (by omega) (by omega))]

theorem uc_begin (m : M) : ∃ m', Reach memCode memCode.ucase_line m memCode.uc_loop m' ∧ m'.y = 255#8 ∧ ∃ a c z n v y,
    m' = { m with a := a, c := c, z := z, n := n, v := v, y := y, zp := { m.zp with inb := 0x80#8, inbh := 5#8 } } := by
  refine ⟨?_, ⟨9, ?_⟩, ?_⟩
  rotate_left
  · rt_exec [memCode.ucase_line.eq, memCode.int_lbuf.eq, memCode.uc_1.eq]
    rfl
  · exact ⟨rfl, _, _, _, _, _, _, rfl⟩

theorem uc_finish (m : M) (k : Code) (st : List Slot) (hs : m.stk = .ret k :: st) (hc : m.c = true) :
    ∃ m', Reach memCode memCode.uc_end m k { m' with stk := st } ∧ m'.a = 0 ∧ m'.src = m.src + BitVec.ofNat 16 m.y.toNat + 1#16 ∧ ∃ a c z n v p q,
      m' = { m with a := a, c := c, z := z, n := n, v := v, zp := { m.zp with bufp := p, bufph := q } } := by
  have hv : ∀ (y l h : B), word (add8 y l true) (if addC y l true then h + 1#8 else h) = word l h + BitVec.ofNat 16 y.toNat + 1#16 := by
    intro y l h
    have := y.isLt; have := l.isLt; have := h.isLt
    apply BitVec.eq_of_toNat_eq
    simp only [word_toNat, add8_toNat, BitVec.toNat_add, BitVec.toNat_ofNat, Bool.toNat_true, addC]
    by_cases q : 256 ≤ y.toNat + l.toNat + 1
    · simp [q]; omega
    · simp [q]; omega
  cases hc2 : addC m.y m.zp.bufp true
  · refine ⟨{ m with a := 0, c := false, z := true, n := false, v := addV m.y m.zp.bufp true, zp := { m.zp with bufp := add8 m.y m.zp.bufp true } }, ⟨6, ?_⟩, ?_⟩
    · rt_exec [memCode.uc_end.eq, memCode.uc_done.eq, hs, hc, hc2]
    · refine ⟨rfl, ?_, _, _, _, _, _, _, _, rfl⟩
      have := hv m.y m.zp.bufp m.zp.bufph
      rw [hc2] at this; exact this
  · refine ⟨{ m with a := 0, c := true, z := true, n := false, v := addV m.y m.zp.bufp true, zp := { m.zp with bufp := add8 m.y m.zp.bufp true, bufph := m.zp.bufph + 1#8 } }, ⟨8, ?_⟩, ?_⟩
    · rt_exec [memCode.uc_end.eq, memCode.uc_done.eq, hs, hc, hc2]
    · refine ⟨rfl, ?_, _, _, _, _, _, _, _, rfl⟩
      have := hv m.y m.zp.bufp m.zp.bufph
      rw [hc2] at this; exact this

/-- The line buffer of the operating system. -/
def LBUFF : W := 0x580#16

/-- Reading one line: `l` is the text of the line, without its end. -/
theorem ucase_line_correct (m : M) (k : Code) (st : List Slot) (l : List B) (hs : m.stk = .ret k :: st) (hx : m.x = 0) (ht : TextAt m.ram m.src (l ++ [0x9B#8]))
    (hn : 0x9B#8 ∉ l) (hl : l.length < 256) (hd : ∀ i ≤ l.length, ∀ i' ≤ l.length, m.src + BitVec.ofNat 16 i ≠ LBUFF + BitVec.ofNat 16 i') :
    ∃ m', Reach memCode memCode.ucase_line m k m' ∧ m'.stk = st ∧ m'.bp = LBUFF ∧ m'.src = m.src + BitVec.ofNat 16 (l.length + 1) ∧
      m'.zp = { m.zp with inb := m'.zp.inb, inbh := m'.zp.inbh, bufp := m'.zp.bufp, bufph := m'.zp.bufph } ∧
      TextAt m'.ram LBUFF (upper false l ++ [0x9B#8]) ∧ ∀ a : W, (∀ i ≤ l.length, a ≠ LBUFF + BitVec.ofNat 16 i) → m'.ram a = m.ram a := by
  obtain ⟨m1, r1, y1, _, _, _, _, _, _, e1⟩ := uc_begin m
  have hb : m1.bp = LBUFF := by rw [e1]; rfl
  have hsr : m1.src = m.src := by rw [e1]; rfl
  obtain ⟨m2, r', r2, c2, y2, k2, q1, q2⟩ := uc_line l m1 false 0 (by rw [y1]; rfl) (by rw [e1]; exact hx)
    (by rw [hsr, e1]; simpa using ht) hn (by omega)
    (by rw [hsr, hb]; exact fun i hi i' hi' => hd i (by omega) i' (by omega))
  obtain ⟨_, _, _, _, _, _, _, e2⟩ := id k2
  obtain ⟨m3, r3, a3, s3, _, _, _, _, _, _, _, e3⟩ := uc_finish m2 k st (by rw [e2, e1]; exact hs) c2
  rw [hb] at q1 q2
  have hr3 : m3.ram = r' := by rw [e3, e2]
  refine ⟨{ m3 with stk := st }, r1.trans (r2.trans r3), rfl, ?_, ?_, ?_, ?_, ?_⟩
  · show m3.bp = _; rw [e3, e2]; exact hb
  · show m3.src = _
    rw [s3, show m2.src = m.src by rw [e2]; exact hsr, y2, show (1#16 : W) = BitVec.ofNat 16 1 from rfl, off_add]
    congr 2; omega
  · show m3.zp = _; rw [e3, e2, e1]
  · show TextAt m3.ram _ _; rw [hr3]; simpa using q1
  · intro a ha
    show m3.ram a = _
    rw [hr3, q2 a (fun i _ h => ha i (by omega)), e1]

end FB.Rt
