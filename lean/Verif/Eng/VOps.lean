import Verif.Eng.Vars
/-!
# Variables in the native compiler: the code does what it must
-/
namespace FB.Eng
open FB.Rt

/-- What a search leaves. -/
def Found (m : M) (vs : List Rt.Ent) (n : Nat) : Word → M → Prop
  | .name N, m' => m'.zp.vlen.toNat = N.length ∧ m'.namp = idx m.bp m.zp.cix + BitVec.ofNat 16 (n - N.length) ∧
      match lookup N vs with
      | some (i, t) => m'.c = false ∧ m'.x.toNat = i ∧ m'.a = t
      | none => m'.c = true
  | .dotted N, m' => m'.zp.vlen.toNat = N.length ∧ m'.namp = idx m.bp m.zp.cix + BitVec.ofNat 16 (n - N.length) ∧ m'.c = true
  | .none, m' => m'.zp.vlen = 0 ∧ m'.c = true

theorem search_any (m : M) (k : Code) (st : List Slot) (base : Nat) (A : List (List B)) (vs ls : List Rt.Ent) {w : Word} {n : Nat} (hk : m.stk = .ret k :: st)
    (ht : Tables m.ram base A vs ls) (hw : NextIs m w n) :
    ∃ m', Reach memCode memCode.var_search m k { m' with stk := st } ∧ Looked m m' ∧ m'.zp.cix.toNat = m.zp.cix.toNat + n ∧ Found m vs n w m' := by
  obtain ⟨m1, r1, y1, x1, k1⟩ := var_search_start m
  obtain ⟨_, _, _, _, _, _, e1⟩ := id k1
  have h1 : m1.ram = m.ram ∧ m1.bp = m.bp ∧ m1.zp = m.zp ∧ m1.stk = m.stk := by rw [e1]; exact ⟨rfl, rfl, rfl, rfl⟩
  have hy : m1.y.toNat = slotsOf vs := by rw [y1]; exact ht.vcount
  cases hw with
  | name b N hN =>
    obtain ⟨hN, c, hc, hat⟩ := hN
    obtain ⟨m2, r2, k2, l2, x2, n2, h2⟩ := list_search_correct m1 1 b N c vs k st (by rw [h1.2.2.2]; exact hk) (by omega) x1 hN hc.noName hc.noDot hc.stops
      ⟨by rw [h1.1, h1.2.1, h1.2.2.1]; exact hat.text, by rw [h1.2.2.1]; exact hat.room⟩ ht.vok hy
      (by rw [h1.1]; have := lays_area ht.lays 1 (by omega); rw [ht.vars] at this; exact this)
    obtain ⟨_, _, _, _, _, _, _, _, _, _, _, _, _, _, e2⟩ := k2
    refine ⟨m2, r1.trans r2, by rw [e2, e1]; exact ⟨_, _, _, _, _, _, _, _, _, _, _, _, _, _, rfl⟩, by rw [x2, h1.2.2.1]; omega, l2, ?_, ?_⟩
    · rw [n2, h1.2.1, h1.2.2.1, Nat.add_sub_cancel]
    · revert h2; cases lookup N vs with
      | none => exact fun h => h.1
      | some p => exact id
  | dotted b N c hN hd hat =>
    obtain ⟨m2, r2, k2⟩ := list_search_start m1 1 (by omega) x1
    obtain ⟨_, _, _, _, _, _, e2⟩ := id k2
    have h2 : m2.ram = m.ram ∧ m2.bp = m.bp ∧ m2.zp.cix = m.zp.cix := by rw [e2, e1]; exact ⟨rfl, rfl, rfl⟩
    obtain ⟨m3, k3, l3, x3, n3, _, h3⟩ := var_getlen_correct m2 b N c (.lb "ls_1" :: memCode.ls_1) k st (by rw [e2]; show _ :: m1.stk = _; rw [h1.2.2.2, hk]) hN ((show ∀ c : B, c = 0x2E#8 ∨ c = 0x6E#8 → ¬ NameChar c by decide +kernel) c hd)
      (by rw [h2.1, h2.2.1, h2.2.2]; exact hat.text) (by rw [h2.2.2]; exact hat.room)
    obtain ⟨c3, r3⟩ := h3 hd
    obtain ⟨_, _, _, _, _, _, _, _, _, _, e3⟩ := k3
    refine ⟨{ m3 with stk := m.stk }, r1.trans (r2.trans r3), by rw [e3, e2, e1]; exact ⟨_, _, _, _, _, _, _, _, _, _, _, _, _, _, rfl⟩, ?_, l3, ?_, c3⟩
    · show m3.zp.cix.toNat = _; rw [x3, h2.2.2]; omega
    · show m3.namp = _; rw [n3, h2.2.1, h2.2.2, Nat.add_sub_cancel]
  | none _ hn =>
    obtain ⟨c, hc, hc', htx, hl⟩ := hn
    obtain ⟨m2, r2, k2⟩ := list_search_start m1 1 (by omega) x1
    obtain ⟨_, _, _, _, _, _, e2⟩ := id k2
    have h2 : m2.ram = m.ram ∧ m2.bp = m.bp ∧ m2.zp.cix = m.zp.cix := by rw [e2, e1]; exact ⟨rfl, rfl, rfl⟩
    obtain ⟨m3, k3, l3, x3, c3, r3⟩ := var_getlen_none m2 n c (.lb "ls_1" :: memCode.ls_1) k st (by rw [e2]; show _ :: m1.stk = _; rw [h1.2.2.2, hk]) hc hc'
      (by rw [h2.1, h2.2.1, h2.2.2]; exact htx) (by rw [h2.2.2]; exact hl)
    obtain ⟨_, _, _, _, _, _, _, _, _, _, e3⟩ := k3
    refine ⟨{ m3 with stk := m.stk }, r1.trans (r2.trans r3), by rw [e3, e2, e1]; exact ⟨_, _, _, _, _, _, _, _, _, _, _, _, _, _, rfl⟩, ?_, l3, c3⟩
    show m3.zp.cix.toNat = _; rw [x3, h2.2.2]

/-- The cells of page zero that these routines keep. -/
structure SameC (z z' : Zp) : Prop where
  mins : z'.mins = z.mins
  prgp : z'.prgp = z.prgp
  prgph : z'.prgph = z.prgph
  inb : z'.inb = z.inb
  inbh : z'.inbh = z.inbh
  pptr : z'.pptr = z.pptr
  pptrh : z'.pptrh = z.pptrh

theorem SameC.refl (z : Zp) : SameC z z := ⟨rfl, rfl, rfl, rfl, rfl, rfl, rfl⟩
theorem SameC.trans {a b c : Zp} (h : SameC a b) (h' : SameC b c) : SameC a c :=
  ⟨h'.mins.trans h.mins, h'.prgp.trans h.prgp, h'.prgph.trans h.prgph, h'.inb.trans h.inb, h'.inbh.trans h.inbh, h'.pptr.trans h.pptr, h'.pptrh.trans h.pptrh⟩

section
variable (err lerr : B)
local notation "Q" => jmpCode err lerr memCode
local notation "V" => natCode err lerr
variable {base : Nat} {s : VS} {m : M} {k : Code} {st : List Slot} {w : Word} {n : Nat}

theorem vsearch_suf : Suf memCode memCode.var_search := find_suf memCode.var_search.find

/-- `var_search` called from the actions. -/
theorem v_search {A : List (List B)} {vs ls : List Rt.Ent} (hs : m.stk = .ret k :: st) (ht : Tables m.ram base A vs ls) (hw : NextIs m w n) :
    ∃ m' z, Reach V memCode.var_search m k m' ∧ m'.jv = { m.jv with stk := st, z := z } ∧ SameC m.jv.z z ∧ m'.zp.cix.toNat = m.zp.cix.toNat + n ∧ m'.zp.tmp3 = m.zp.tmp3 ∧
      Found m vs n w m' := by
  have hw' : NextIs { m with stk := [.ret away] } w n := by
    cases hw with
    | name b N h => obtain ⟨h0, c, h1, h2⟩ := h; exact .name b N ⟨h0, c, h1, h2.text, h2.room⟩
    | dotted b N c h0 hd h2 => exact .dotted b N c h0 hd ⟨h2.text, h2.room⟩
    | none _ h => obtain ⟨c, h1, h2, h3, h4⟩ := h; exact .none n ⟨c, h1, h2, h3, h4⟩
  obtain ⟨m1, r1, ⟨_, _, _, _, _, _, _, _, _, _, _, _, _, _, e1⟩, x1, f1⟩ := search_any { m with stk := [.ret away] } away [] base A vs ls rfl ht hw'
  obtain ⟨r, _⟩ := mem_call err lerr vsearch_suf hs r1
  subst e1
  refine ⟨_, _, r.more (jmp_in err lerr), rfl, ⟨rfl, rfl, rfl, rfl, rfl, rfl, rfl⟩, x1, rfl, ?_⟩
  revert f1
  cases w <;> exact id

end

/-! ## The state in memory -/

theorem lays_set {r : W → B} {base : Nat} {A A' : List (List B)} {i : Nat} {b : B} (h : Lays r base A) (h5 : A'.length = 5)
    (hl : ∀ j, (A'.take j).flatten.length = (A.take j).flatten.length) (hf : A'.flatten = A.flatten.set i b) (hi : i < A.flatten.length) :
    Lays (upd r (BitVec.ofNat 16 (base + i)) b) base A' := by
  have hlow := h.low; have hhigh := h.high
  have hn : (BitVec.ofNat 16 (base + i)).toNat = base + i := by rw [BitVec.toNat_ofNat]; omega
  refine ⟨h5, hlow, by rw [hf, List.length_set]; exact hhigh, ?_, ?_⟩
  · intro j hj
    rw [hl, ← h.ptrs j hj]
    have ne : ∀ b < 10, memStart + BitVec.ofNat 16 b ≠ BitVec.ofNat 16 (base + i) := by
      intro b hb e
      have := congrArg BitVec.toNat e
      rw [hn] at this
      simp at this; omega
    unfold ptr
    rw [upd_ne (ne _ (by omega)), upd_ne (ne _ (by omega))]
  · intro j hj
    have hj' : j < A.flatten.length := by rw [hf, List.length_set] at hj; exact hj
    simp only [hf, List.getElem_set]
    by_cases e : i = j
    · subst e; rw [if_pos rfl]; exact upd_at ..
    · rw [if_neg e, upd_ne, h.bytes j hj']
      intro e'
      have := congrArg BitVec.toNat e'
      rw [hn, BitVec.toNat_ofNat] at this
      omega

section
variable {base : Nat} {s : VS} {v : JV}

theorem VRep.ptr_eq (h : VRep base s v) (j : Nat) (hj : j ≤ 4) : (ptr v.ram j).toNat = base + (s.areas.take (j + 1)).flatten.length := h.tabs.lays.ptrs j hj

theorem VRep.size (h : VRep base s v) : base + s.prog.length + s.buf.length + (table s.vs).length + (table s.ls).length + s.lad.length ≤ 65280 := by
  have := h.tabs.lays.high
  simp only [VS.areas, List.flatten_cons, List.flatten_nil, List.length_append, List.length_nil] at this
  omega

theorem VRep.idx_eq (h : VRep base s v) (o : B) : idx v.prog o = BitVec.ofNat 16 (base + (s.prog.length + o.toNat)) := by
  have h0 := h.ptr_eq 0 (by omega)
  simp only [VS.areas, List.take_succ_cons, List.take_zero, List.flatten_cons, List.flatten_nil, List.append_nil] at h0
  rw [h.pptr, idx]
  apply BitVec.eq_of_toNat_eq
  rw [BitVec.toNat_add, h0, BitVec.toNat_ofNat, BitVec.toNat_ofNat]
  have := o.isLt
  omega

/-- The last byte of the code. -/
theorem VRep.last_eq (h : VRep base s v) (ho : 0 < s.op) : v.ram (idx v.prog (v.op - 1)) = s.last ∧ (v.op - 1).toNat = s.op - 1 := by
  have h1 := h.op
  have h2 := v.op.isLt
  have e : (v.op - 1).toNat = s.op - 1 := by
    rw [BitVec.toNat_sub]; simp; omega
  refine ⟨?_, e⟩
  have hr := h.room
  rw [h.idx_eq, e]
  have := h.tabs.lays.bytes (s.prog.length + (s.op - 1)) (by simp only [VS.areas, List.flatten_cons, List.length_append]; omega)
  rw [this]
  simp only [VS.areas, List.flatten_cons]
  rw [List.getElem_append_right (by omega), List.getElem_append_left (by omega), VS.last, List.getD_eq_getElem?_getD, List.getElem?_eq_getElem (by omega)]
  simp

/-- A new state in memory, with the same stack of variables. -/
theorem VRep.change (h : VRep base s v) {s' : VS} {v' : JV} (tabs : Tables v'.ram base s'.areas s'.vs s'.ls) (room : 256 ≤ s'.buf.length) (pp : v'.prog = ptr v'.ram 0) (mi : v'.z.mins = v.z.mins)
    (lo : ∀ a : W, a.toNat = 0xB5 ∨ a.toNat = 0x2E5 ∨ a.toNat = 0x2E6 ∨ (0x480 ≤ a.toNat ∧ a.toNat < 0x500) → v'.ram a = v.ram a) (op : v'.op.toNat = s'.op) (hk : s'.stk = s.stk)
    (fi : base + s'.areas.flatten.length ≤ (memTop v.ram).toNat) : VRep base s' v' := by
  have hspl := h.spl
  have mt : memTop v'.ram = memTop v.ram := by
    unfold memTop
    rw [lo 0x2E5 (.inr (.inl rfl)), lo 0x2E6 (.inr (.inr (.inl rfl)))]
  refine ⟨tabs, h.low, room, pp, mi.trans h.mins, ?_, by rw [mt]; exact fi, op, ?_, by rw [hk]; exact hspl, ?_⟩
  · unfold TopOk; rw [mt]; exact h.top
  · rw [lo varSp (.inl rfl), hk]; exact h.sp
  · intro i hi
    have hi' : i < s.stk.length := by rw [← hk]; exact hi
    rw [lo _ (.inr (.inr (.inr (by rw [BitVec.toNat_ofNat]; omega)))), h.vst i hi']
    simp only [hk]

/-- Only the length of the code and the cells of page zero change. -/
theorem VRep.move (h : VRep base s v) {o : B} {z : Zp} {stk : List Slot} (hz : SameC v.z z) {j : Nat} (hj : o.toNat = j) : VRep base { s with op := j } { v with op := o, z := z, stk := stk } := by
  refine h.change (s' := { s with op := j }) (v' := { v with op := o, z := z, stk := stk }) h.tabs h.room ?_ hz.mins (fun _ _ => rfl) hj rfl h.fits
  show word z.prgp z.prgph = _
  rw [hz.prgp, hz.prgph]; exact h.pptr

theorem set_mid (P X R : List B) (i : Nat) (b : B) (hi : i < X.length) : P ++ (X.set i b ++ R) = (P ++ (X ++ R)).set (P.length + i) b := by
  rw [List.set_append_right _ _ (by omega), List.set_append_left _ _ (by omega)]
  simp

theorem ptr_upd {r : W → B} {p : W} {b : B} {j : Nat} (hj : j ≤ 4) (hp : 0x300 ≤ p.toNat) : ptr (upd r p b) j = ptr r j := by
  have ne : ∀ b < 10, memStart + BitVec.ofNat 16 b ≠ p := by
    intro b hb e
    have := congrArg BitVec.toNat e
    simp at this; omega
  unfold ptr
  rw [upd_ne (ne _ (by omega)), upd_ne (ne _ (by omega))]

/-- A byte of code. -/
theorem VRep.emit (h : VRep base s v) (ho : s.op < 255) (b : B) {z : Zp} {stk : List Slot} (hz : SameC v.z z) :
    VRep base { s with buf := s.buf.set s.op b, op := s.op + 1 } { v with op := v.op + 1, ram := upd v.ram v.cp b, z := z, stk := stk } := by
  have hsz := h.size; have hr := h.room; have hlo := h.low
  have hcp : v.cp = BitVec.ofNat 16 (base + (s.prog.length + s.op)) := by rw [JV.cp, h.idx_eq, h.op]
  have hn : (BitVec.ofNat 16 (base + (s.prog.length + s.op))).toNat = base + (s.prog.length + s.op) := by rw [BitVec.toNat_ofNat]; omega
  have low : ∀ a : W, a.toNat < 0x600 → upd v.ram v.cp b a = v.ram a := by
    intro a ha
    apply upd_ne
    intro e
    rw [e, hcp, hn] at ha
    omega
  have t := h.tabs
  refine h.change (s' := { s with buf := s.buf.set s.op b, op := s.op + 1 }) (v' := { v with op := v.op + 1, ram := upd v.ram v.cp b, z := z, stk := stk })
    ⟨?_, rfl, rfl, t.vok, t.lok, ?_, ?_⟩ (by rw [List.length_set]; exact hr) ?_ hz.mins (fun a ha => low a (by omega)) ?_ rfl
    (by have := h.fits; simp only [VS.areas, List.flatten_cons, List.length_append, List.length_set] at this ⊢; exact this)
  · show Lays (upd v.ram v.cp b) _ _
    rw [hcp]
    refine lays_set t.lays rfl ?_ ?_ (by simp only [VS.areas, List.flatten_cons, List.length_append]; omega)
    · intro j
      match j with
      | 0 => rfl
      | 1 => rfl
      | j + 2 =>
        simp only [VS.areas, List.take_succ_cons, List.flatten_cons, List.length_append, List.length_set]
    · simp only [VS.areas, List.flatten_cons]
      exact set_mid _ _ _ _ _ (by omega)
  · show (upd v.ram v.cp b varCount).toNat = _
    rw [low _ (by decide)]; exact t.vcount
  · show (upd v.ram v.cp b lblCount).toNat = _
    rw [low _ (by decide)]; exact t.lcount
  · show word z.prgp z.prgph = ptr (upd v.ram v.cp b) 0
    rw [ptr_upd (by omega) (by rw [hcp, hn]; omega), hz.prgp, hz.prgph]; exact h.pptr
  · show (v.op + 1).toNat = s.op + 1
    rw [BitVec.toNat_add, h.op]
    show (s.op + 1) % 256 = _
    omega

theorem VFr.refl (base : Nat) (v : JV) : VFr base v v := ⟨rfl, rfl, ⟨rfl, rfl, rfl, rfl⟩, fun _ _ _ _ _ _ => rfl⟩

theorem VFr.trans {a b c : JV} (hb : 0x600 ≤ base) (h : VFr base a b) (h' : VFr base b c) : VFr base a c := by
  have e : memTop b.ram = memTop a.ram := by
    unfold memTop
    rw [h.ram 0x2E5 (.inl (by show 0x2E5 < base; omega)) (by decide) (by decide) (by decide) (by decide), h.ram 0x2E6 (.inl (by show 0x2E6 < base; omega)) (by decide) (by decide) (by decide) (by decide)]
  obtain ⟨c1, c2, c3, c4⟩ := h.cells
  obtain ⟨d1, d2, d3, d4⟩ := h'.cells
  refine ⟨h'.out.trans h.out, h'.dev.trans h.dev, ⟨d1.trans c1, d2.trans c2, d3.trans c3, d4.trans c4⟩, fun a h1 h2 h3 h4 h5 => ?_⟩
  rw [h'.ram a (by rw [e]; exact h1) h2 h3 h4 h5, h.ram a h1 h2 h3 h4 h5]

/-- Only cells of page zero, the length of the code and the stack of the processor change. -/
theorem VFr.move (base : Nat) (v : JV) {o : B} {z : Zp} {stk : List Slot} (hz : SameC v.z z) : VFr base v { v with op := o, z := z, stk := stk } :=
  ⟨rfl, rfl, ⟨hz.inb, hz.inbh, hz.pptr, hz.pptrh⟩, fun _ _ _ _ _ _ => rfl⟩

/-- A byte of code. -/
theorem VFr.emit (h : VRep base s v) (ho : s.op < 256) {b o : B} {z : Zp} {stk : List Slot} (hz : SameC v.z z) : VFr base v { v with op := o, ram := upd v.ram v.cp b, z := z, stk := stk } := by
  have hsz := h.size; have hr := h.room; have hlo := h.low; have hf := h.fits
  simp only [VS.areas, List.flatten_cons, List.length_append] at hf
  have hcp : v.cp = BitVec.ofNat 16 (base + (s.prog.length + s.op)) := by rw [JV.cp, h.idx_eq, h.op]
  have hn : (BitVec.ofNat 16 (base + (s.prog.length + s.op))).toNat = base + (s.prog.length + s.op) := by rw [BitVec.toNat_ofNat]; omega
  refine ⟨rfl, rfl, ⟨hz.inb, hz.inbh, hz.pptr, hz.pptrh⟩, fun a h1 _ _ _ _ => upd_ne fun e => ?_⟩
  rw [e, hcp, hn] at h1
  omega

end

/-! ## The routines -/

section
variable (err lerr : B)
local notation "Q" => jmpCode err lerr memCode
local notation "V" => natCode err lerr
variable {base : Nat} {s : VS} {m : M} {k : Code} {st : List Slot} {w : Word} {n : Nat}

/-- The code at `c` does what `o` says, and reads `n` characters; then it goes on at `k` with the stack `st`. -/
def Does47 (base : Nat) (o : VOut) (n : Nat) (c : Code) (m : M) (k : Code) (st : List Slot) : Prop :=
  match o with
  | .ok s' => ∃ m', Reach V c m k m' ∧ m'.c = false ∧ m'.stk = st ∧ VRep base s' m'.jv ∧ VFr base m.jv m'.jv ∧ m'.zp.cix.toNat = m.zp.cix.toNat + n
  | .fail s' => ∃ m', Reach V c m k m' ∧ m'.c = true ∧ m'.stk = st ∧ VRep base s' m'.jv ∧ VFr base m.jv m'.jv ∧ m'.zp.cix.toNat = m.zp.cix.toNat + n
  | .long => ∃ m', Reach V c m (jmpCode.parser_error err lerr memCode) m' ∧ m'.y = err
  | .full => Fails V c m

theorem Does47.pre {o : VOut} {c c0 : Code} {m0 : M} {n0 : Nat} (h : Does47 err lerr base o n c m k st) (hr : Reach V c0 m0 c m) (hb : 0x600 ≤ base) (hf : VFr base m0.jv m.jv)
    (hc : m.zp.cix.toNat = m0.zp.cix.toNat + n0) : Does47 err lerr base o (n0 + n) c0 m0 k st := by
  cases o with
  | ok s' =>
    obtain ⟨m', r, c1, s1, v1, f1, x1⟩ := h
    exact ⟨m', hr.trans r, c1, s1, v1, hf.trans hb f1, by rw [x1, hc]; omega⟩
  | fail s' =>
    obtain ⟨m', r, c1, s1, v1, f1, x1⟩ := h
    exact ⟨m', hr.trans r, c1, s1, v1, hf.trans hb f1, by rw [x1, hc]; omega⟩
  | long => obtain ⟨m', r, y⟩ := h; exact ⟨m', hr.trans r, y⟩
  | full => exact hr.fails h

theorem j_emit_y (ho : m.zp.opos + 1#8 = 0#8) : ∃ m', Reach Q (jmpCode.parser_emit_byte err lerr memCode) m (jmpCode.parser_error err lerr memCode) m' ∧ m'.y = err := by
  refine ⟨?_, ⟨8, ?_⟩, ?_⟩
  rotate_left
  · rt_exec [jmpCode.parser_emit_byte.eq, jmpCode.parser_inc_opos.eq, jmpCode.too_long.eq, ho]
    rfl
  · rfl

theorem SameC.of (m : M) : SameC m.jv.z m.jv.z := SameC.refl _

/-- `parser_emit_byte`. -/
theorem v_byte (h : VRep base s m.jv) (hs : m.stk = .ret k :: st) (hc : m.c = false) : Does47 err lerr base (s.emit m.a) 0 (jmpCode.parser_emit_byte err lerr memCode) m k st := by
  have ho := h.op
  change m.zp.opos.toNat = s.op at ho
  have hlt := m.zp.opos.isLt
  unfold VS.emit
  by_cases hl : s.op < 255
  · rw [if_pos hl]
    obtain ⟨m1, r1, v1, _, _, c1, _, _⟩ := j_emit err lerr memCode hs (by
      intro e
      have := congrArg BitVec.toNat e
      rw [BitVec.toNat_add, ho] at this
      simp at this; omega)
    refine ⟨m1, r1.more (jmp_in err lerr), c1.trans hc, congrArg JV.stk v1, ?_, ?_, ?_⟩
    · rw [v1]; exact h.emit hl m.a (SameC.refl _)
    · rw [v1]; exact VFr.emit h (by omega) (SameC.refl _)
    · show m1.jv.z.cix.toNat = _
      rw [v1]; rfl
  · rw [if_neg hl]
    obtain ⟨m1, r1, y1⟩ := j_emit_y err lerr (m := m) (by
      apply BitVec.eq_of_toNat_eq
      rw [BitVec.toNat_add, ho]
      simp; omega)
    exact ⟨m1, r1.more (jmp_in err lerr), y1⟩

/-- `emit_varn`. -/
theorem v_varn (h : VRep base s m.jv) (hs : m.stk = .ret k :: st) : Does47 err lerr base (s.emit m.x) 0 (varCode.emit_varn Q) m k st := by
  let m0 : M := { m with a := m.x, z := decide (m.x = 0#8), n := topBit m.x, c := false }
  have r0 : Reach V (varCode.emit_varn Q) m (jmpCode.parser_emit_byte err lerr memCode) m0 := by
    refine ⟨3, ?_⟩
    rt_exec [varCode.emit_varn.eq, jmp_in err lerr _ _ (jmpCode.parser_emit_byte.find ..)]
    rfl
  have := (v_byte err lerr (m := m0) (k := k) (st := st) h hs rfl).pre err lerr (n0 := 0) r0 h.low (VFr.refl _ _) rfl
  exact this

end

end FB.Eng
