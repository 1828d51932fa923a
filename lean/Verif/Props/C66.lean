import Verif.Rt.Usr
/-!
# C66: USR, and the search of lines of the editor
-/
namespace FB.Rt

/-! ## Specification -/

/-- Specification: `q` is the start of the line after that of `p`, in a text up to `e` (not included): the place after the first end of line, or `e` if there is none. -/
def IsNextLine (r : W → B) (p e q : W) : Prop :=
  (∃ i < (e - p).toNat, r (p + BitVec.ofNat 16 i) = 0x9B ∧ (∀ j < i, r (p + BitVec.ofNat 16 j) ≠ 0x9B) ∧ q = p + BitVec.ofNat 16 (i + 1)) ∨
  ((∀ j < (e - p).toNat, r (p + BitVec.ofNat 16 j) ≠ 0x9B) ∧ q = e)

/-- There is only one such place. -/
theorem nextLine_unique (r : W → B) (p e q q' : W) (h : IsNextLine r p e q) (h' : IsNextLine r p e q') : q = q' := by
  rcases h with ⟨i, i1, i2, i3, i4⟩ | ⟨n, rfl⟩ <;> rcases h' with ⟨i', i1', i2', i3', i4'⟩ | ⟨n', rfl⟩
  · rcases Nat.lt_trichotomy i i' with l | l | l
    · exact absurd i2 (i3' i l)
    · rw [i4, i4', l]
    · exact absurd i2' (i3 i' l)
  · exact absurd i2 (n' i i1)
  · exact absurd i2' (n i' i1')
  · rfl

/-! ## The loop -/

theorem subB0 (a b : B) : a - b = 0#8 ↔ a = b := by
  constructor
  · intro h
    have := congrArg (· + b) h
    simpa [BitVec.sub_add_cancel] using this
  · rintro rfl; exact BitVec.sub_self a

theorem word_inj2 (a b c d : B) : word a b = word c d ↔ a = c ∧ b = d := by
  constructor
  · intro h
    have e := congrArg BitVec.toNat h
    rw [word_toNat, word_toNat] at e
    have := a.isLt; have := b.isLt; have := c.isLt; have := d.isLt
    exact ⟨BitVec.eq_of_toNat_eq (by omega), BitVec.eq_of_toNat_eq (by omega)⟩
  · rintro ⟨rfl, rfl⟩; rfl

theorem word_idx (y h : B) : idx (word 0#8 h) y = word y h := by
  apply BitVec.eq_of_toNat_eq
  have := y.isLt; have := h.isLt
  rw [idx, BitVec.toNat_add, word_toNat, word_toNat]
  simp only [BitVec.toNat_ofNat]
  omega

/-- The next address. -/
theorem word_incIf (y h : B) : word (y + 1#8) (if y + 1#8 = 0#8 then h + 1#8 else h) = word y h + 1 := by
  have := y.isLt; have := h.isLt
  have e1 : y + 1#8 = 0#8 ↔ y.toNat = 255 := by
    rw [← BitVec.toNat_inj, BitVec.toNat_add]
    show (y.toNat + 1) % 256 = 0 ↔ _
    omega
  apply BitVec.eq_of_toNat_eq
  rw [word_toNat, BitVec.toNat_add, BitVec.toNat_add, word_toNat]
  show (y.toNat + 1) % 256 + 256 * _ = (_ + 1) % 65536
  by_cases c : y.toNat = 255
  · rw [if_pos (e1.2 c), BitVec.toNat_add]; show _ + 256 * ((h.toNat + 1) % 256) = _; omega
  · rw [if_neg (fun h => c (e1.1 h))]; omega

/-- The state in the loop, at the address `word y h`, for an end at `word el eh`. -/
structure ClAt (z : Zp) (r : W → B) (s : List Slot) (sl sh : B → B) (y h el eh : B) (m : M) : Prop where
  y : m.y = y
  x : m.x = eh
  zp : m.zp = { z with tmp1 := el, tmp2 := 0#8, tmp2h := h }
  ram : m.ram = r
  stk : m.stk = s
  sl : m.sl = sl
  sh : m.sh = sh

theorem cl_end (z : Zp) (r : W → B) (kc : Code) (st : List Slot) (sl sh : B → B) (y h el eh : B) (m : M) (c : ClAt z r (.ret kc :: st) sl sh y h el eh m) :
    ∃ m', Reach usrCode usrCode.cl_end m kc m' ∧ m'.ax = word y h ∧ m'.ram = r ∧ m'.stk = st ∧ m'.sl = sl ∧ m'.sh = sh ∧ m'.zp = { z with tmp1 := el, tmp2 := 0#8, tmp2h := h } := by
  have k := c.stk
  refine ⟨?_, ⟨3, ?_⟩, ?_⟩
  rotate_left
  · rt_exec [usrCode.cl_end.eq, k]
    rfl
  · refine ⟨?_, c.ram, rfl, c.sl, c.sh, c.zp⟩
    simp only [M.ax, c.y, c.zp]

theorem cl_test (z : Zp) (r : W → B) (s : List Slot) (sl sh : B → B) (y h el eh : B) (m : M) (c : ClAt z r s sl sh y h el eh m) :
    (word y h = word el eh → ∃ m', Reach usrCode usrCode.cl_loop m usrCode.cl_end m' ∧ ClAt z r s sl sh y h el eh m') ∧
    (word y h ≠ word el eh → ∃ m', Reach usrCode usrCode.cl_loop m usrCode.cl_go m' ∧ m'.a = r (word y h) ∧ ClAt z r s sl sh y h el eh m') := by
  obtain ⟨c1, c2, c3, c4, c5, c6, c7⟩ := c
  constructor
  · intro e
    obtain ⟨rfl, rfl⟩ := (word_inj2 _ _ _ _).1 e
    refine ⟨?_, ⟨5, ?_⟩, ?_⟩
    rotate_left
    · rt_exec [usrCode.cl_loop.eq, c1, c2, c3]
      rfl
    · exact ⟨by simp only [c1], by simp only [c2], by simp only [c3], c4, c5, c6, c7⟩
  · intro e
    by_cases e1 : y = el
    · have e2 : ¬ eh - h = 0#8 := fun f => e ((word_inj2 _ _ _ _).2 ⟨e1, ((subB0 _ _).1 f).symm⟩)
      subst e1
      refine ⟨?_, ⟨6, ?_⟩, ?_⟩
      rotate_left
      · rt_exec [usrCode.cl_loop.eq, c1, c2, c3, e2, word_idx]
        rfl
      · exact ⟨by simp only [c4], by simp only [c1], by simp only [c2], by simp only [c3], c4, c5, c6, c7⟩
    · have e2 : ¬ y - el = 0#8 := fun f => e1 ((subB0 _ _).1 f)
      refine ⟨?_, ⟨3, ?_⟩, ?_⟩
      rotate_left
      · rt_exec [usrCode.cl_loop.eq, c1, c2, c3, e2, word_idx]
        rfl
      · exact ⟨by simp only [c4], by simp only [c1], by simp only [c2], by simp only [c3], c4, c5, c6, c7⟩

theorem cl_step (z : Zp) (r : W → B) (s : List Slot) (sl sh : B → B) (y h el eh : B) (m : M) (c : ClAt z r s sl sh y h el eh m) :
    ∃ m', Reach usrCode usrCode.cl_go m (if m.a = 0x9B#8 then usrCode.cl_end else usrCode.cl_loop) m' ∧ ClAt z r s sl sh (y + 1#8) (if y + 1#8 = 0#8 then h + 1#8 else h) el eh m' := by
  obtain ⟨c1, c2, c3, c4, c5, c6, c7⟩ := c
  by_cases e : m.a = 0x9B#8
  · by_cases f : y + 1#8 = 0#8
    · rw [if_pos e, if_pos f, f]
      refine ⟨?_, ⟨7, ?_⟩, ?_⟩
      rotate_left
      · rt_exec [usrCode.cl_go.eq, usrCode.cl_cmp.eq, c1, c2, c3, e, f]
        rfl
      · exact ⟨rfl, by simp only [c2], by simp only [c3], c4, c5, c6, c7⟩
    · rw [if_pos e, if_neg f]
      refine ⟨?_, ⟨5, ?_⟩, ?_⟩
      rotate_left
      · rt_exec [usrCode.cl_go.eq, usrCode.cl_cmp.eq, c1, c2, c3, e, f]
        rfl
      · exact ⟨rfl, by simp only [c2], by simp only [c3], c4, c5, c6, c7⟩
  · have g : ¬ m.a - 0x9B#8 = 0#8 := fun h => e ((subB0 _ _).1 h)
    by_cases f : y + 1#8 = 0#8
    · rw [if_neg e, if_pos f, f]
      refine ⟨?_, ⟨6, ?_⟩, ?_⟩
      rotate_left
      · rt_exec [usrCode.cl_go.eq, usrCode.cl_cmp.eq, c1, c2, c3, g, f]
        rfl
      · exact ⟨rfl, by simp only [c2], by simp only [c3], c4, c5, c6, c7⟩
    · rw [if_neg e, if_neg f]
      refine ⟨?_, ⟨4, ?_⟩, ?_⟩
      rotate_left
      · rt_exec [usrCode.cl_go.eq, usrCode.cl_cmp.eq, c1, c2, c3, g, f]
        rfl
      · exact ⟨rfl, by simp only [c2], by simp only [c3], c4, c5, c6, c7⟩

theorem next_here (r : W → B) (p e : W) (h : p ≠ e) (hr : r p = 0x9B) : IsNextLine r p e (p + 1) := by
  refine .inl ⟨0, ?_, ?_, fun j hj => by omega, rfl⟩
  · apply Nat.pos_of_ne_zero
    intro c
    have : e - p = 0#16 := BitVec.eq_of_toNat_eq c
    have := congrArg (· + p) this
    simp only [BitVec.sub_add_cancel] at this
    exact h (by rw [this]; simp)
  · simpa using hr

theorem next_later (r : W → B) (p e q : W) (h : p ≠ e) (hr : r p ≠ 0x9B) (d : Nat) (hd : (e - p).toNat = d + 1) (hd' : (e - (p + 1)).toNat = d) (hq : IsNextLine r (p + 1) e q) : IsNextLine r p e q := by
  have sh : ∀ j : Nat, p + 1 + BitVec.ofNat 16 j = p + BitVec.ofNat 16 (j + 1) := fun j => by
    rw [BitVec.add_assoc, Nat.add_comm j 1, BitVec.ofNat_add]; rfl
  have lt : ∀ i, (∀ j < i, r (p + 1 + BitVec.ofNat 16 j) ≠ 0x9B) → ∀ j < i + 1, r (p + BitVec.ofNat 16 j) ≠ 0x9B := fun i f j hj => by
    cases j with
    | zero => simpa using hr
    | succ j => rw [← sh]; exact f j (by omega)
  rcases hq with ⟨i, i1, i2, i3, i4⟩ | ⟨n, rfl⟩
  · exact .inl ⟨i + 1, by omega, by rw [← sh]; exact i2, lt i i3, by rw [i4, sh]⟩
  · exact .inr ⟨by rw [hd]; exact lt d (by rw [hd'] at n; exact n), rfl⟩

/-- The loop. -/
theorem cl_loop (z : Zp) (r : W → B) (kc : Code) (st : List Slot) (sl sh : B → B) (el eh : B) (d : Nat) : ∀ (y h : B) (m : M), (word el eh - word y h).toNat = d → ClAt z r (.ret kc :: st) sl sh y h el eh m →
    ∃ m' h', Reach usrCode usrCode.cl_loop m kc m' ∧ IsNextLine r (word y h) (word el eh) m'.ax ∧ m'.ram = r ∧ m'.stk = st ∧ m'.sl = sl ∧ m'.sh = sh ∧ m'.zp = { z with tmp1 := el, tmp2 := 0#8, tmp2h := h' } := by
  induction d with
  | zero =>
    intro y h m hd c
    have e : word y h = word el eh := by
      have : word el eh - word y h = 0#16 := BitVec.eq_of_toNat_eq hd
      have := congrArg (· + word y h) this
      simp only [BitVec.sub_add_cancel] at this
      rw [this]; simp
    obtain ⟨m1, q1, c1⟩ := (cl_test _ _ _ _ _ _ _ _ _ m c).1 e
    obtain ⟨m', q2, a, u, s, l, k, zz⟩ := cl_end _ _ _ _ _ _ _ _ _ _ m1 c1
    exact ⟨m', h, q1.trans q2, by rw [a]; exact .inr ⟨fun j hj => by omega, e⟩, u, s, l, k, zz⟩
  | succ d ih =>
    intro y h m hd c
    have e : word y h ≠ word el eh := fun e => by rw [e, BitVec.sub_self] at hd; simp at hd
    obtain ⟨m1, q1, a1, c1⟩ := (cl_test _ _ _ _ _ _ _ _ _ m c).2 e
    obtain ⟨m2, q2, c2⟩ := cl_step _ _ _ _ _ _ _ _ _ m1 c1
    have wi := word_incIf y h
    by_cases f : m1.a = 0x9B#8
    · rw [if_pos f] at q2
      obtain ⟨m', q3, a, u, s, l, k, zz⟩ := cl_end _ _ _ _ _ _ _ _ _ _ m2 c2
      exact ⟨m', _, (q1.trans q2).trans q3, by rw [a, wi]; exact next_here r _ _ e (by rw [← a1]; exact f), u, s, l, k, zz⟩
    · rw [if_neg f] at q2
      have hd' : (word el eh - (word y h + 1)).toNat = d := by
        generalize word el eh = E at *
        generalize word y h = P at *
        have e1 : E - (P + 1) = E - P - 1#16 := by
          rw [BitVec.sub_eq_iff_eq_add, BitVec.add_comm P 1, ← BitVec.add_assoc]
          show E = E - P - 1#16 + 1#16 + P
          rw [BitVec.sub_add_cancel, BitVec.sub_add_cancel]
        rw [e1]
        generalize E - P = D at *
        have := D.isLt
        rw [BitVec.toNat_sub]
        show (65536 - 1 + D.toNat) % 65536 = d
        omega
      obtain ⟨m', h', q3, nx, u, s, l, k, zz⟩ := ih _ _ m2 (by rw [wi]; exact hd') c2
      rw [wi] at nx
      exact ⟨m', h', (q1.trans q2).trans q3, next_later r _ _ _ e (by rw [← a1]; exact f) d hd hd' nx, u, s, l, k, zz⟩

/-! ## The statements -/

/-- **C66, the address**: `USR_ADDR` keeps the address of the routine and leaves on the stack of the processor the place to return, from where the interpreter goes on. -/
theorem C66_addr (m : M) : ∃ m', Halts usrCode usrCode.EXE_USR_ADDR m m' ∧ m'.stk = .ret (.lb "usr_back" :: usrCode.usr_back) :: m.stk ∧ word (m'.ram usrAddr) (m'.ram (usrAddr + 1)) = m.ax ∧
    (∀ a, a ≠ usrAddr → a ≠ usrAddr + 1 → m'.ram a = m.ram a) ∧ m'.zp = m.zp ∧ m'.sl = m.sl ∧ m'.sh = m.sh := by
  refine ⟨?_, ⟨4, ?_⟩, ?_⟩
  rotate_left
  · rt_exec [usrCode.EXE_USR_ADDR.eq, usrCode.usr_next.eq]
    rfl
  · exact ⟨rfl, by simp [upd_app, M.ax], fun a h1 h2 => by simp at h1 h2; simp [upd_app, h1, h2], rfl, rfl, rfl⟩

/-- **C66, the arguments**: `USR_PARAM` leaves the value on the stack of the processor, its high byte first to pull. -/
theorem C66_param (m : M) : ∃ m', Halts usrCode usrCode.EXE_USR_PARAM m m' ∧ m'.stk = .byte m.x :: .byte m.a :: m.stk ∧ m'.ram = m.ram ∧ m'.zp = m.zp ∧ m'.sl = m.sl ∧ m'.sh = m.sh := by
  refine ⟨?_, ⟨4, ?_⟩, ?_⟩
  rotate_left
  · rt_exec [usrCode.EXE_USR_PARAM.eq]
    rfl
  · exact ⟨rfl, rfl, rfl, rfl, rfl⟩

/-- **C66, the call**: with the stack that these leave for `USR(@COUNT_LINES, p, e)`, the call gives the start of the next line, for any text, and goes back to the interpreter with the stack as it was before `USR`. -/
theorem C66_call (m : M) (p e : W) (pl ph el eh : B) (hp : p = word pl ph) (he : e = word el eh) (st : List Slot)
    (hs : m.stk = .byte eh :: .byte el :: .byte ph :: .byte pl :: .ret (.lb "usr_back" :: usrCode.usr_back) :: st) :
    ∃ m' h', Halts usrCode usrCode.EXE_USR_CALL m m' ∧ IsNextLine m.ram p e m'.ax ∧ m'.ram = m.ram ∧ m'.stk = st ∧ m'.sl = m.sl ∧ m'.sh = m.sh ∧ m'.zp = { m.zp with tmp1 := el, tmp2 := 0#8, tmp2h := h' } := by
  subst hp he
  obtain ⟨m1, q1, c1⟩ : ∃ m1, Reach usrCode usrCode.EXE_USR_CALL m usrCode.cl_loop m1 ∧ ClAt m.zp m.ram (.ret (.lb "usr_back" :: usrCode.usr_back) :: st) m.sl m.sh pl ph el eh m1 := by
    refine ⟨?_, ⟨12, ?_⟩, ?_⟩
    rotate_left
    · rt_exec [usrCode.EXE_USR_CALL.eq, usrCode.COUNT_LINES.eq, hs]
      rfl
    · exact ⟨rfl, rfl, rfl, rfl, rfl, rfl, rfl⟩
  obtain ⟨m2, h', q2, nx, u, s, l, k, zz⟩ := cl_loop _ _ _ _ _ _ _ _ _ _ _ m1 rfl c1
  refine ⟨m2, h', (q1.trans q2).halts ⟨2, ?_⟩, nx, u, s, l, k, zz⟩
  rt_exec [usrCode.usr_back.eq]

/-- **C66, all of it**: `USR(@COUNT_LINES, p, e)`: the tokens one after the other, with any code between them that leaves the stack of the processor as it was (the values of the arguments). -/
theorem C66_usr (m0 m2 m4 m6 : M) (p e : W) (hp : m2.ax = p) (he : m4.ax = e)
    (h2 : ∀ m1, Halts usrCode usrCode.EXE_USR_ADDR m0 m1 → m2.stk = m1.stk) (h4 : ∀ m3, Halts usrCode usrCode.EXE_USR_PARAM m2 m3 → m4.stk = m3.stk) (h6 : Halts usrCode usrCode.EXE_USR_PARAM m4 m6) :
    ∃ m7, Halts usrCode usrCode.EXE_USR_CALL m6 m7 ∧ IsNextLine m6.ram p e m7.ax ∧ m7.stk = m0.stk ∧ m7.ram = m6.ram := by
  obtain ⟨m1, q1, s1, -⟩ := C66_addr m0
  obtain ⟨m3, q3, s3, -⟩ := C66_param m2
  obtain ⟨m5, q5, s5, -⟩ := C66_param m4
  have e5 := Halts.unique h6 q5
  subst e5
  obtain ⟨m7, h', q, nx, u, s, -⟩ := C66_call m6 p e m2.a m2.x m4.a m4.x hp.symm he.symm m0.stk (by rw [s5, h4 m3 q3, s3, h2 m1 q1, s1])
  exact ⟨m7, q, nx, s, u⟩

/-! ## A case -/

/-- A text of two lines, `AB` and `C`, from `$20FF` to `$2103`: the next line is at `$2102`, and the one after that is the end. -/
def exTwoLines (a : W) : B := if a = 0x20FF then 65 else if a = 0x2100 then 66 else if a = 0x2101 then 0x9B else if a = 0x2102 then 67 else 0

example (m : M) (hr : m.ram = exTwoLines) (st : List Slot) (hs : m.stk = .byte 0x21 :: .byte 0x03 :: .byte 0x20 :: .byte 0xFF :: .ret (.lb "usr_back" :: usrCode.usr_back) :: st) :
    ∃ m', Halts usrCode usrCode.EXE_USR_CALL m m' ∧ m'.ax = 0x2102 ∧ m'.stk = st := by
  obtain ⟨m', h', q, nx, -, s, -⟩ := C66_call m 0x20FF 0x2103 0xFF 0x20 0x03 0x21 (by decide) (by decide) st hs
  refine ⟨m', q, nextLine_unique _ _ _ _ _ nx ?_, s⟩
  rw [hr]
  exact .inl ⟨2, by decide, by decide, by decide, by decide⟩

end FB.Rt
