import Verif.Eng.JRep
/-!
# The jumps in the native compiler: the routines on loops

Each routine takes a memory that holds a state of `Native.Jumps` to one that holds the state after the function of that model.
-/
namespace FB.Eng
open FB.Rt
open FB.Native (NS Ent LAd put wbytes ltNum)

theorem Fr.of {p : JPar} {v v0 v' : JV} (h : Fr p v0 v') (e : v0 = { v with stk := v0.stk, op := v0.op }) : Fr p v v' := by
  refine ⟨h.z.trans (by rw [e]), h.sl.trans (by rw [e]), h.sh.trans (by rw [e]), h.out.trans (by rw [e]), h.dev.trans (by rw [e]), fun a ha => (h.ram a ha).trans (by rw [e])⟩

/-- The routine is done: the memory holds the new state, and the rest is as before. -/
structure Done (p : JPar) (n : NS) (m m' : M) (st : List Slot) : Prop where
  rep : JRep p n m'.jv
  fr : Fr p m.jv m'.jv
  stk : m'.stk = st

theorem Done.trans {p : JPar} {n n' : NS} {m m0 m1 m2 : M} {s s' : List Slot} (h : Done p n m m1 s) (e : m0.jv = { m1.jv with stk := m0.jv.stk, op := m0.jv.op }) (h' : Done p n' m0 m2 s') :
    Done p n' m m2 s' := ⟨h'.rep, h.fr.trans (h'.fr.of e), h'.stk⟩

theorem Done.of {p : JPar} {n : NS} {m m0 m1 : M} {s : List Slot} (e : m0.jv = { m.jv with stk := m0.jv.stk, op := m0.jv.op }) (h : Done p n m0 m1 s) : Done p n m m1 s := ⟨h.rep, h.fr.of e, h.stk⟩

/-- The cell `tmp1` is kept. -/
def T1 (m m' : M) : Prop := m'.zp.tmp1 = m.zp.tmp1 ∧ m'.zp.tmp1h = m.zp.tmp1h

theorem T1.trans {a b c : M} (h : T1 a b) (h' : T1 b c) : T1 a c := ⟨h'.1.trans h.1, h'.2.trans h.2⟩

theorem checkExitL_loops (r : Nat) (x : List Ent) : ∀ (l : List Ent) (n : NS), NS.checkExitL r l { n with loops := x } = NS.checkExitL r l n := by
  intro l
  induction l with
  | nil => intro n; rfl
  | cons e es ih =>
    intro n
    unfold NS.checkExitL
    split
    · exact ih (n.patch r e.pos)
    · rfl

theorem popElifs_loops (r : Nat) (x : List Ent) : ∀ (l : List Ent) (n : NS), NS.popElifs r l { n with loops := x } = NS.popElifs r l n := by
  intro l
  induction l with
  | nil => intro n; rfl
  | cons e es ih =>
    intro n
    unfold NS.popElifs
    split
    · exact ih (n.patch r e.pos)
    · rfl

section
variable (err lerr : B) (rest : Code)
local notation "P" => jmpCode err lerr rest

/-- The routine at `c` does what `r` says: a new state that fits in the line of code, with the carry clear and `X` of the state of the machine; or the error message. -/
def Does (p : JPar) (r : Option NS) (c : Code) (m : M) (k : Code) (st : List Slot) (X : M → Prop := fun _ => True) : Prop :=
  match r with
  | none => Errs err lerr rest c m
  | some n => if n.cp < p.prog + 256 then ∃ m', Reach P c m k m' ∧ Done p n m m' st ∧ m'.c = false ∧ X m' else Errs err lerr rest c m

variable {err lerr rest} in
theorem Does.pre {p : JPar} {r : Option NS} {c c0 : Code} {m m0 : M} {k : Code} {st : List Slot} {X : M → Prop} (h : Does err lerr rest p r c m k st X)
    (h0 : Reach P c0 m0 c m) (e : m.jv = { m0.jv with stk := m.jv.stk, op := m.jv.op }) : Does err lerr rest p r c0 m0 k st X := by
  unfold Does at h ⊢
  split
  · exact h0.errs h
  · rename_i n
    simp only at h
    split at h
    · rename_i hc
      rw [if_pos hc]
      obtain ⟨m', a, b, c⟩ := h
      exact ⟨m', h0.trans a, b.of e, c⟩
    · rename_i hc
      rw [if_neg hc]
      exact h0.errs h

variable {err lerr rest} in
theorem Does.step {p : JPar} {n : NS} {r : Option NS} {c c0 : Code} {m m1 m0 : M} {k : Code} {s st : List Slot} {X : M → Prop} (h : Does err lerr rest p r c m k st X)
    (hd : Done p n m0 m1 s) (h0 : Reach P c0 m0 c m) (e : m.jv = { m1.jv with stk := m.jv.stk, op := m.jv.op }) : Does err lerr rest p r c0 m0 k st X := by
  unfold Does at h ⊢
  split
  · exact h0.errs h
  · rename_i n
    simp only at h
    split at h
    · rename_i hc
      rw [if_pos hc]
      obtain ⟨m', a, b, c⟩ := h
      exact ⟨m', h0.trans a, hd.trans e b, c⟩
    · rename_i hc
      rw [if_neg hc]
      exact h0.errs h

variable {p : JPar} {n : NS} {m : M} {k : Code} {st : List Slot} (h : JRep p n m.jv) (hs : m.stk = .ret k :: st)
include h

theorem op_inc1 : m.zp.opos + 1#8 = 0#8 ↔ p.prog + 256 ≤ n.cp + 1 := by
  have := h.cp
  have e : m.jv.op = m.zp.opos := rfl
  rw [e] at this
  constructor
  · intro h'; have := congrArg BitVec.toNat h'; simp at this; omega
  · intro h'; apply BitVec.eq_of_toNat_eq; have := m.zp.opos.isLt; simp; omega

theorem op_inc2 : (m.zp.opos + 1#8 = 0#8 ∨ m.zp.opos + 1#8 + 1#8 = 0#8) ↔ p.prog + 256 ≤ n.cp + 2 := by
  have := h.cp
  have e : m.jv.op = m.zp.opos := rfl
  rw [e] at this
  have := m.zp.opos.isLt
  constructor
  · rintro (h' | h') <;> · have := congrArg BitVec.toNat h'; simp [BitVec.toNat_add] at this; omega
  · intro h'
    by_cases h2 : m.zp.opos.toNat = 255
    · left; apply BitVec.eq_of_toNat_eq; simp; omega
    · right; apply BitVec.eq_of_toNat_eq; simp [BitVec.toNat_add]; omega

include hs

/-- `get_last_tok`. -/
theorem m_last_ram (hp : HasLast p n) : ∃ m', Reach P (jmpCode.get_last_tok err lerr rest) m k m' ∧ Done p n.getLastTok.2 m m' st ∧ m'.a.toNat = n.getLastTok.1 ∧ m'.c = m.c ∧ T1 m m' ∧
    m'.ram = m.ram := by
  obtain ⟨m', r, v, a, x, c, t1, t2⟩ := j_last err lerr rest hs
  have hcp := h.cp
  have := m.jv.op.isLt
  have hbl := h.base_le
  obtain ⟨hp, hk⟩ := hp
  have o : (m.jv.op - 1).toNat = m.jv.op.toNat - 1 := by
    rw [BitVec.toNat_sub]; simp; omega
  refine ⟨m', r, ⟨?_, ?_, ?_⟩, ?_, c, ⟨t1, t2⟩, congrArg JV.ram v⟩
  · rw [v]
    have := (h.move (m.jv.op - 1)).stk st
    rw [o, show p.prog + (m.jv.op.toNat - 1) = n.cp - 1 by omega] at this
    exact this
  · rw [v]; exact (Fr.move (p := p) (m.jv.op - 1)).trans (Fr.stk st)
  · exact congrArg JV.stk v
  · rw [a, h.idx_eq, o]
    show _ = n.mem (n.cp - 1)
    rw [h.mem _ (by omega) (by omega) hk, show p.prog + (m.jv.op.toNat - 1) = n.cp - 1 by omega]; rfl

theorem m_last (hp : HasLast p n) : ∃ m', Reach P (jmpCode.get_last_tok err lerr rest) m k m' ∧ Done p n.getLastTok.2 m m' st ∧ m'.a.toNat = n.getLastTok.1 ∧ m'.c = m.c ∧ T1 m m' := by
  obtain ⟨m', r, d, a, c, t, _⟩ := m_last_ram err lerr rest h hs hp
  exact ⟨m', r, d, a, c, t⟩

/-- `patch_codep`. -/
theorem m_patch {q : Nat} (hw : word m.a m.x = BitVec.ofNat 16 q) (hq : p.base ≤ q) (hq' : q + 1 < p.prog + 256) :
    ∃ m', Reach P (jmpCode.patch_codep err lerr rest) m k m' ∧ Done p (n.patch p.reloc q) m m' st ∧ m'.y = 1#8 ∧ m'.c = false ∧ T1 m m' ∧ m'.ram 0xB4 = m.ram 0xB4 := by
  have := h.low; have hlt := h.prog_lt
  obtain ⟨m', r, v, y, c, t1, t2⟩ := j_patch err lerr rest hs (by rw [hw]; exact wne (b := 0xB2) (by omega) (by omega) (by omega))
  obtain ⟨h1, h2⟩ := h.patch hq hq'
  have e : BitVec.ofNat 16 q + 1 = BitVec.ofNat 16 (q + 1) := by rw [BitVec.ofNat_add]; rfl
  refine ⟨m', r, ⟨?_, ?_, congrArg JV.stk v⟩, y, c, ⟨t1, t2⟩, ?_⟩
  · rw [v, hw, e]; exact h1.stk st
  · rw [v, hw, e]; exact h2.trans (Fr.stk st)
  · have hr : m'.ram = _ := congrArg JV.ram v
    rw [hr, hw, e]
    show upd (upd m.ram _ _) _ _ (BitVec.ofNat 16 0xB4) = m.ram (BitVec.ofNat 16 0xB4)
    rw [upd_ne (wne (a := 0xB4) (b := q + 1) (by omega) (by omega) (by omega)), upd_ne (wne (a := 0xB4) (b := q) (by omega) (by omega) (by omega))]

/-- `emit_addr`. -/
theorem m_addr (hc : m.c = false) {q : Nat} (hw : (word m.a m.x).toNat = q % 65536) :
    Does err lerr rest p (some (n.emitAddr p.reloc q)) (jmpCode.emit_addr err lerr rest) m k st (T1 m) := by
  have hcp := h.cp
  have e : m.jv.op = m.zp.opos := rfl
  have e2 : (n.emitAddr p.reloc q).cp = n.cp + 2 := rfl
  unfold Does
  simp only [e2]
  split
  · rename_i hlt
    have ho : ¬ (m.zp.opos + 1#8 = 0#8 ∨ m.zp.opos + 1#8 + 1#8 = 0#8) := by rw [op_inc2 h]; omega
    obtain ⟨m', r, v, c, t⟩ := j_addr err lerr rest hs hc (fun h => ho (.inl h)) (fun h => ho (.inr h))
    obtain ⟨h1, h2⟩ := h.emitAddr q _ hw (by omega)
    exact ⟨m', r, ⟨by rw [v]; exact h1.stk st, by rw [v]; exact h2.trans (Fr.stk st), congrArg JV.stk v⟩, c, t⟩
  · exact j_addr_long err lerr rest hc ((op_inc2 h).2 (by omega))

omit h hs in
theorem bit6 (a : B) : topBit (rol8 a false) = true ↔ a.toNat / 64 % 2 = 1 := by
  revert a; decide +kernel

/-- `push_codep`. -/
theorem m_push : Does err lerr rest p (n.push m.a.toNat) (jmpCode.push_codep err lerr rest) m k st (T1 m) := by
  have hsp := h.sp; have hroom := h.room; have hbl := h.base_le; have hcp := h.cp
  have hop := m.jv.op.isLt
  have hsp' : (m.ram 179#16).toNat = 3 * n.loops.length := hsp
  let m0 : M := { m with y := m.ram 179#16, z := decide (m.ram 179#16 = 0#8), n := topBit (m.ram 179#16) }
  have h0 : JRep p n m0.jv := h
  have r0 : Reach P (jmpCode.push_codep err lerr rest) m (jmpCode.push_codep_y err lerr rest) m0 := by
    refine ⟨2, ?_⟩
    rt_exec [jmpCode.push_codep.eq]
    rfl
  refine Does.pre ?_ r0 rfl
  have y3 : topBit (m0.y + 1#8 + 1#8 + 1#8) = decide (3 * (n.loops.length + 1) ≥ 128) := by
    have : (m0.y + 1#8 + 1#8 + 1#8).toNat = 3 * n.loops.length + 3 := by
      rw [BitVec.toNat_add, BitVec.toNat_add, BitVec.toNat_add]; show ((((m.ram 179#16).toNat + _) % _ + _) % _ + _) % _ = _
      rw [hsp']; simp; omega
    simp only [topBit, BitVec.msb_eq_decide, this]; simp; omega
  have he : BitVec.ofNat 8 m.a.toNat = m.a := by simp
  unfold NS.push
  by_cases hf : 3 * (n.loops.length + 1) ≥ 128
  · rw [if_pos hf]
    rw [decide_eq_true hf] at y3
    exact j_push_full err lerr rest y3
  · rw [if_neg hf]
    rw [decide_eq_false hf] at y3
    unfold Does
    by_cases hb : m.a.toNat / 64 % 2 = 1
    · simp only [hb, if_true]
      rw [if_pos (by omega)]
      obtain ⟨m', r, v, c, t⟩ := j_push6 err lerr rest (m := m0) hs y3 ((bit6 m.a).2 hb)
      obtain ⟨h1, h2⟩ := h.push (t := m.a.toNat) m.a.isLt (by omega) m.jv.op ⟨m.a.isLt, by simp only; omega, by simp only; omega, by simp only; omega⟩
      rw [he] at h1 h2
      rw [← h.cp] at h1
      exact ⟨m', r, ⟨by rw [v]; exact h1.stk st, by rw [v]; exact h2.trans (Fr.stk st), congrArg JV.stk v⟩, c, t⟩
    · simp only [hb, if_false]
      have hb' : topBit (rol8 m0.a false) = false := by
        cases hx : topBit (rol8 m0.a false) with
        | false => rfl
        | true => exact absurd ((bit6 m.a).1 hx) hb
      split
      · rename_i hlt
        have ho : ¬ (m.zp.opos + 1#8 = 0#8 ∨ m.zp.opos + 1#8 + 1#8 = 0#8) := by rw [op_inc2 h]; omega
        obtain ⟨m', r, v, c, t⟩ := j_push2 err lerr rest (m := m0) hs y3 hb' (fun h => ho (.inl h)) (fun h => ho (.inr h))
        obtain ⟨h1, h2⟩ := h.push (t := m.a.toNat) m.a.isLt (by omega) (m.jv.op + 1 + 1) ⟨m.a.isLt, by simp only; omega, by simp only; omega, by simp only; omega⟩
        rw [he] at h1 h2
        have o2 : (m.jv.op + 1 + 1).toNat = m.jv.op.toNat + 2 := by rw [BitVec.toNat_add, BitVec.toNat_add]; simp; omega
        rw [o2, ← Nat.add_assoc, ← h.cp] at h1
        exact ⟨m', r, ⟨by rw [v]; exact h1.stk st, by rw [v]; exact h2.trans (Fr.stk st), congrArg JV.stk v⟩, c, t⟩
      · exact j_push_long err lerr rest (m := m0) y3 hb' ((op_inc2 h).2 (by omega))

/-- `pop_codep::get`. -/
theorem m_get (hy : m.y = m.ram 0xB3) {e : Ent} {es : List Ent} (hl : n.loops = e :: es) :
    ∃ m', Reach P (jmpCode.pp_get err lerr rest) m k m' ∧ Done p { n with loops := es } m m' st ∧ word m'.a m'.x = BitVec.ofNat 16 e.pos ∧ m'.c = false ∧ m'.zp = m.zp := by
  obtain ⟨m', r, v, a, x, c, z⟩ := j_get err lerr rest hs
  rw [hy] at v a x
  obtain ⟨h1, h2, h3⟩ := h.pop hl
  refine ⟨m', r, ⟨by rw [v]; exact h1.stk st, by rw [v]; exact h2.trans (Fr.stk st), congrArg JV.stk v⟩, ?_, c, z⟩
  rw [a, x]; exact h3

omit h hs in
theorem of8 {a b : Nat} (ha : a < 256) (hb : b < 256) : BitVec.ofNat 8 a = BitVec.ofNat 8 b ↔ a = b := by
  constructor
  · intro e; have := congrArg BitVec.toNat e; simp at this; omega
  · intro e; rw [e]

/-- `pop_codep`. -/
theorem m_pop {t : Nat} (ht : t < 256) (ha : m.a = BitVec.ofNat 8 t) :
    match n.pop t with
    | none => Errs err lerr rest (jmpCode.pop_codep err lerr rest) m
    | some (q, n') => ∃ m', Reach P (jmpCode.pop_codep err lerr rest) m k m' ∧ Done p n' m m' st ∧ word m'.a m'.x = BitVec.ofNat 16 q ∧ m'.c = false ∧ m'.zp = m.zp := by
  have key : ∀ e es, n.loops = e :: es → ((t = e.type ∨ (t = ltNum .ELSE ∧ ltNum .IF = e.type)) ↔ (m.a = m.ram (idx 0x3fd (m.ram 0xB3)) ∨ m.a = 130#8 ∧ 129#8 = m.ram (idx 0x3fd (m.ram 0xB3)))) := by
    intro e es hl
    have h1 : m.ram (idx 0x3fd (m.ram 0xB3)) = BitVec.ofNat 8 e.type := (h.top_type hl).1
    have he := (h.ents e (by rw [hl]; exact List.mem_cons_self ..)).type
    rw [ha, h1, of8 ht he, show (130#8 : B) = BitVec.ofNat 8 130 from rfl, of8 ht (by omega), show (129#8 : B) = BitVec.ofNat 8 129 from rfl, of8 (by omega) he]; rfl
  unfold NS.pop
  cases hl : n.loops with
  | nil => exact j_pop_empty err lerr rest (h.no_loops hl)
  | cons e es =>
    simp only
    by_cases hx : t = e.type ∨ (t = ltNum .ELSE ∧ ltNum .IF = e.type)
    · rw [if_pos hx]
      obtain ⟨m1, r1, v1, y1, z1⟩ := j_pop_hit err lerr rest (h.top_type hl).2 ((key e es hl).1 hx)
      have hram : m1.ram = m.ram := congrArg JV.ram v1
      obtain ⟨m2, r2, d2, w2, c2, z2⟩ := m_get err lerr rest (m := m1) (k := k) (st := st) (by rw [v1]; exact h) ((congrArg JV.stk v1).trans hs) (by rw [y1, hram]) hl
      exact ⟨m2, r1.trans r2, d2.of (by rw [v1]), w2, c2, z2.trans z1⟩
    · rw [if_neg hx]
      exact j_pop_miss err lerr rest (h.top_type hl).2 (fun hy => hx ((key e es hl).2 hy))

omit hs in
theorem pop_ent {t q : Nat} {n' : NS} (hp : n.pop t = some (q, n')) : p.base ≤ q ∧ q < p.prog + 256 ∧ (t / 64 % 2 = 0 → q + 1 < p.prog + 256) ∧ n'.cp = n.cp ∧ n'.mem = n.mem := by
  unfold NS.pop at hp
  cases hl : n.loops with
  | nil => rw [hl] at hp; simp at hp
  | cons e es =>
    rw [hl] at hp
    simp only at hp
    split at hp
    · rename_i ht
      cases hp
      have he := h.ents e (by rw [hl]; exact List.mem_cons_self ..)
      refine ⟨he.lo, he.hi, fun hb => ?_, rfl, rfl⟩
      have := he.two (by
        rcases ht with ht | ⟨ht, ht'⟩
        · rw [← ht]; exact hb
        · rw [← ht']; decide)
      omega
    · simp at hp

omit hs in
theorem JRep.cp_lt : n.cp < p.prog + 256 := by
  have := h.cp; have := m.jv.op.isLt; omega

variable {err lerr rest} in
omit h hs in
/-- One routine after another. -/
theorem Does.bind {r : Option NS} {f : NS → Option NS} {c k1 : Code} {st1 : List Slot} {X Y : M → Prop} (h1 : Does err lerr rest p r c m k1 st1 X)
    (hm : ∀ n1 n2, r = some n1 → f n1 = some n2 → p.prog + 256 ≤ n1.cp → p.prog + 256 ≤ n2.cp)
    (h2 : ∀ n1 m1, r = some n1 → Done p n1 m m1 st1 → m1.c = false → X m1 → Does err lerr rest p (f n1) k1 m1 k st Y) : Does err lerr rest p (r.bind f) c m k st Y := by
  cases r with
  | none => exact h1
  | some n1 =>
    simp only [Option.bind]
    unfold Does at h1
    simp only at h1
    split at h1
    · obtain ⟨m1, r1, d1, c1, x1⟩ := h1
      exact (h2 n1 m1 rfl d1 c1 x1).step d1 r1 rfl
    · rename_i hc
      unfold Does
      split
      · exact h1
      · rename_i n2 e
        rw [if_neg (by have := hm n1 n2 rfl e (by omega); omega)]
        exact h1

variable {err lerr rest} in
omit h hs in
theorem Does.weaken {r : Option NS} {c : Code} {X : M → Prop} (h1 : Does err lerr rest p r c m k st X) : Does err lerr rest p r c m k st := by
  unfold Does at h1 ⊢
  split
  · exact h1
  · simp only at h1
    split at h1
    · rename_i hc
      obtain ⟨m1, r1, d1, c1, x1⟩ := h1
      rw [if_pos hc]; exact ⟨m1, r1, d1, c1, trivial⟩
    · rename_i hc
      rw [if_neg hc]; exact h1

/-- `pop_patch_codep`. -/
theorem m_poppatch {t : Nat} (ht : t < 256) (hb : t / 64 % 2 = 0) (ha : m.a = BitVec.ofNat 8 t) :
    Does err lerr rest p ((n.pop t).map fun x => x.2.patch p.reloc x.1) (jmpCode.pop_patch_codep err lerr rest) m k st := by
  let m0 : M := { m with stk := .ret (.lb "patch_codep" :: jmpCode.patch_codep err lerr rest) :: m.stk }
  have r0 : Reach P (jmpCode.pop_patch_codep err lerr rest) m (jmpCode.pop_codep err lerr rest) m0 := by
    refine ⟨1, ?_⟩
    rt_exec [jmpCode.pop_patch_codep.eq]
    rfl
  have hp := m_pop err lerr rest (m := m0) (h.stk _) rfl ht ha
  cases hx : n.pop t with
  | none =>
    rw [hx] at hp
    exact r0.errs hp
  | some x =>
    obtain ⟨q, n'⟩ := x
    rw [hx] at hp
    simp only at hp
    obtain ⟨m1, r1, d1, w1, c1, z1⟩ := hp
    obtain ⟨e1, e2, e3, e4⟩ := pop_ent h hx
    obtain ⟨m2, r2, d2, y2, c2, t2⟩ := m_patch err lerr rest (m := m1) (k := k) (st := st) d1.rep (d1.stk.trans hs) w1 e1 (e3 hb)
    unfold Does
    simp only [Option.map]
    rw [if_pos (JRep.cp_lt d2.rep)]
    refine ⟨m2, r0.trans (r1.trans (Reach.trans ⟨1, ?_⟩ r2)), Done.of (m0 := m0) rfl (d1.trans rfl d2), c2, trivial⟩
    rt_exec

/-- `pop_emit_addr`. -/
theorem m_popaddr {t : Nat} (ht : t < 256) (ha : m.a = BitVec.ofNat 8 t) :
    Does err lerr rest p ((n.pop t).map fun x => x.2.emitAddr p.reloc x.1) (jmpCode.pop_emit_addr err lerr rest) m k st := by
  have hlt := h.prog_lt
  let m0 : M := { m with stk := .ret (.lb "emit_addr" :: jmpCode.emit_addr err lerr rest) :: m.stk }
  have r0 : Reach P (jmpCode.pop_emit_addr err lerr rest) m (jmpCode.pop_codep err lerr rest) m0 := by
    refine ⟨1, ?_⟩
    rt_exec [jmpCode.pop_emit_addr.eq]
    rfl
  have hp := m_pop err lerr rest (m := m0) (h.stk _) rfl ht ha
  cases hx : n.pop t with
  | none =>
    rw [hx] at hp
    exact r0.errs hp
  | some x =>
    obtain ⟨q, n'⟩ := x
    rw [hx] at hp
    simp only at hp
    obtain ⟨m1, r1, d1, w1, c1, z1⟩ := hp
    obtain ⟨e1, e2, e3, e4⟩ := pop_ent h hx
    have d2 := m_addr err lerr rest (m := m1) (k := k) (st := st) d1.rep (d1.stk.trans hs) c1 (q := q) (by rw [w1, BitVec.toNat_ofNat])
    refine Does.pre (d2.weaken.step d1 (r1.trans ⟨1, ?_⟩) rfl) r0 rfl
    rt_exec

/-- `check_loop_exit`. -/
theorem m_check : Does err lerr rest p (some (n.checkExit p.reloc)) (jmpCode.check_loop_exit err lerr rest) m k st := by
  unfold NS.checkExit
  generalize hl : n.loops = l
  induction l generalizing n m with
  | nil =>
    obtain ⟨m', r, v, c⟩ := j_check_no err lerr rest hs (.inl (h.no_loops hl))
    unfold Does NS.checkExitL
    simp only
    rw [if_pos (JRep.cp_lt h)]
    refine ⟨m', r, ⟨?_, ?_, congrArg JV.stk v⟩, c, trivial⟩
    · rw [v]; rw [← hl]; exact h.stk st
    · rw [v]; exact Fr.stk st
  | cons e es ih =>
    have he := h.ents e (by rw [hl]; exact List.mem_cons_self ..)
    obtain ⟨t1, t2⟩ := h.top_type hl
    have e0 : e.type = ltNum .EXIT ↔ BitVec.ofNat 8 e.type = 0#8 := by
      rw [show (0#8 : B) = BitVec.ofNat 8 0 from rfl, of8 he.type (by omega)]; rfl
    unfold NS.checkExitL
    by_cases hx : e.type = ltNum .EXIT
    · rw [if_pos hx]
      obtain ⟨m1, r1, v1, y1⟩ := j_check_yes err lerr rest t2 (by rw [show m.ram (idx 0x3fd (m.ram 0xB3)) = _ from t1]; exact e0.1 hx)
      have hram : m1.ram = m.ram := congrArg JV.ram v1
      obtain ⟨m2, r2, d2, w2, c2, z2⟩ := m_get err lerr rest (m := m1) (by rw [v1]; exact h.stk _) (congrArg JV.stk v1) (by rw [y1, hram]) hl
      have hlt : e.pos + 1 < p.prog + 256 := by have := he.two (by rw [hx]; decide); omega
      let m3 : M := { m2 with stk := .ret (.lb "ce_2" :: jmpCode.ce_2 err lerr rest) :: m2.stk }
      obtain ⟨m4, r4, d4, y4, c4, t4⟩ := m_patch err lerr rest (m := m3) (d2.rep.stk _) rfl w2 he.lo hlt
      have d5 : Done p _ m m4 m2.stk := Done.of (m0 := m1) (by rw [v1]) (d2.trans (m0 := m3) rfl d4)
      have s4 : m4.stk = .ret k :: st := d4.stk.trans (d2.stk.trans hs)
      rw [← checkExitL_loops p.reloc es es (n.patch p.reloc e.pos)]
      refine Does.step (ih (n := NS.patch p.reloc { n with loops := es } e.pos) (m := m4) d4.rep s4 rfl) d5 (r1.trans (r2.trans (Reach.trans ⟨2, ?_⟩ (r4.trans ⟨2, ?_⟩)))) rfl
      · rt_exec [jmpCode.ce_1.eq]
        rfl
      · rt_exec [jmpCode.ce_2.eq]
    · rw [if_neg hx]
      obtain ⟨m', r, v, c⟩ := j_check_no err lerr rest hs (.inr (by rw [show m.ram (idx 0x3fd (m.ram 0xB3)) = _ from t1]; exact fun h' => hx (e0.2 h')))
      unfold Does
      simp only
      rw [if_pos (JRep.cp_lt h)]
      refine ⟨m', r, ⟨?_, ?_, congrArg JV.stk v⟩, c, trivial⟩
      · rw [v]; rw [← hl]; exact h.stk st
      · rw [v]; exact Fr.stk st

/-- `inc_opos_2`. -/
theorem m_inc2 : Does err lerr rest p (some { n with cp := n.cp + 2 }) (jmpCode.inc_opos_2 err lerr rest) m k st (fun m' => m'.a = m.a) := by
  have hcp := h.cp
  have e : m.jv.op = m.zp.opos := rfl
  unfold Does
  simp only
  split
  · rename_i hlt
    have ho : ¬ (m.zp.opos + 1#8 = 0#8 ∨ m.zp.opos + 1#8 + 1#8 = 0#8) := by rw [op_inc2 h]; omega
    obtain ⟨m', r, v, a, c, t⟩ := j_inc2 err lerr rest hs (fun h => ho (.inl h)) (fun h => ho (.inr h))
    have h1 := (h.move (m.jv.op + 1 + 1)).stk st
    have o2 : (m.jv.op + 1 + 1).toNat = m.jv.op.toNat + 2 := by rw [BitVec.toNat_add, BitVec.toNat_add]; simp; omega
    rw [o2, ← Nat.add_assoc, ← h.cp] at h1
    exact ⟨m', r, ⟨by rw [v]; exact h1, by rw [v]; exact (Fr.move (p := p) _).trans (Fr.stk st), congrArg JV.stk v⟩, c, a⟩
  · exact j_inc2_long err lerr rest ((op_inc2 h).2 (by omega))

omit hs in
/-- The place of the code goes back. -/
theorem JRep.back {d : Nat} (hd : p.prog + d ≤ n.cp) (o : B) (ho : o.toNat + d = m.jv.op.toNat) (s : List Slot) : JRep p { n with cp := n.cp - d } { m.jv with op := o, stk := s } := by
  have := (h.move o).stk s
  have hcp := h.cp
  rw [show p.prog + o.toNat = n.cp - d by omega] at this
  exact this

/-- `E_PUSH_LT`. -/
theorem m_pushLT (hp : HasLast p n) : Does err lerr rest p n.ePushLT (jmpCode.E_PUSH_LT err lerr rest) m k st (T1 m) := by
  let m0 : M := { m with stk := .ret (.lb "push_codep" :: jmpCode.push_codep err lerr rest) :: m.stk }
  obtain ⟨m1, r1, d1, a1, c1, t1⟩ := m_last err lerr rest (m := m0) (h.stk _) rfl hp
  have d2 := m_push err lerr rest (m := m1) (k := k) (st := st) d1.rep (d1.stk.trans hs)
  rw [a1] at d2
  have r : Reach P (jmpCode.E_PUSH_LT err lerr rest) m (jmpCode.push_codep err lerr rest) m1 := by
    refine Reach.trans (Reach.trans ⟨1, ?_⟩ r1) ⟨1, ?_⟩
    · rt_exec [jmpCode.E_PUSH_LT.eq]
      rfl
    · rt_exec
  have d3 := d2.step (Done.of (m0 := m0) rfl d1) r rfl
  have e : T1 m1 = T1 m := by
    funext x; unfold T1; rw [t1.1, t1.2]
  rw [e] at d3
  exact d3

end

theorem pop_cp {n n' : NS} {t q : Nat} (h : n.pop t = some (q, n')) : n'.cp = n.cp := by
  unfold NS.pop at h
  split at h
  · simp at h
  · split at h
    · cases h; rfl
    · simp at h

theorem checkExitL_cp (r : Nat) : ∀ (l : List Ent) (n : NS), (NS.checkExitL r l n).cp = n.cp := by
  intro l
  induction l with
  | nil => intro n; rfl
  | cons e es ih =>
    intro n
    unfold NS.checkExitL
    split
    · rw [ih]; rfl
    · rfl

theorem checkExit_cp (r : Nat) (n : NS) : (n.checkExit r).cp = n.cp := checkExitL_cp r _ _

theorem popElifs_cp (r : Nat) : ∀ (l : List Ent) (n : NS), (NS.popElifs r l n).cp = n.cp := by
  intro l
  induction l with
  | nil => intro n; rfl
  | cons e es ih =>
    intro n
    unfold NS.popElifs
    split
    · rw [ih]; rfl
    · rfl

theorem patch_cp (r : Nat) (n : NS) (q : Nat) : (n.patch r q).cp = n.cp := rfl
theorem emitAddr_cp (r : Nat) (n : NS) (q : Nat) : (n.emitAddr r q).cp = n.cp + 2 := rfl

theorem poppatch_cp {r t : Nat} {n n' : NS} (h : ((n.pop t).map fun x => x.2.patch r x.1) = some n') : n'.cp = n.cp := by
  cases hx : n.pop t with
  | none => rw [hx] at h; simp at h
  | some x =>
    rw [hx] at h
    obtain ⟨q, n1⟩ := x
    simp only [Option.map, Option.some.injEq] at h
    rw [← h, patch_cp, pop_cp hx]

theorem popaddr_cp {r t : Nat} {n n' : NS} (h : ((n.pop t).map fun x => x.2.emitAddr r x.1) = some n') : n'.cp = n.cp + 2 := by
  cases hx : n.pop t with
  | none => rw [hx] at h; simp at h
  | some x =>
    rw [hx] at h
    obtain ⟨q, n1⟩ := x
    simp only [Option.map, Option.some.injEq] at h
    rw [← h, emitAddr_cp, pop_cp hx]

section
variable (err lerr : B) (rest : Code)
local notation "P" => jmpCode err lerr rest
variable {p : JPar} {n : NS} {m : M} {k : Code} {st : List Slot} (h : JRep p n m.jv) (hs : m.stk = .ret k :: st)
include h hs

/-- `E_POP_PROC_2`. -/
theorem m_popProc2 : Does err lerr rest p (n.ePopProc2 p.reloc) (jmpCode.E_POP_PROC_2 err lerr rest) m k st := by
  let m0 : M := { m with a := 64#8, z := false, n := false, stk := .ret (.lb "check_loop_exit" :: jmpCode.check_loop_exit err lerr rest) :: m.stk }
  have r0 : Reach P (jmpCode.E_POP_PROC_2 err lerr rest) m (jmpCode.pop_codep err lerr rest) m0 := by
    refine ⟨2, ?_⟩
    rt_exec [jmpCode.E_POP_PROC_2.eq]
    rfl
  have hp := m_pop err lerr rest (m := m0) (h.stk _) rfl (t := 64) (by decide) rfl
  unfold NS.ePopProc2
  show Does err lerr rest p (match n.pop 64 with | none => none | some (_, n) => some (n.checkExit p.reloc)) _ m k st
  cases hx : n.pop 64 with
  | none =>
    rw [hx] at hp
    exact r0.errs hp
  | some x =>
    obtain ⟨q, n'⟩ := x
    rw [hx] at hp
    simp only at hp
    obtain ⟨m1, r1, d1, w1, c1, z1⟩ := hp
    have d2 := m_check err lerr rest (m := m1) (k := k) (st := st) d1.rep (d1.stk.trans hs)
    refine Does.pre (d2.step d1 (r1.trans ⟨1, ?_⟩) rfl) r0 rfl
    rt_exec

/-- `E_POP_PROC_DATA`. -/
theorem m_popProcData : Does err lerr rest p (n.ePopProcData p.reloc) (jmpCode.E_POP_PROC_DATA err lerr rest) m k st := by
  have d := m_poppatch err lerr rest (m := { m with a := 1#8, z := false, n := false }) (k := k) (st := st) h hs (t := 1) (by decide) (by decide) rfl
  have e : n.ePopProcData p.reloc = (n.pop 1).map fun x => x.2.patch p.reloc x.1 := by
    unfold NS.ePopProcData
    show (match n.pop 1 with | none => none | some (p', n) => some (n.patch p.reloc p')) = _
    cases n.pop 1 <;> rfl
  rw [e]
  refine d.pre ⟨2, ?_⟩ rfl
  rt_exec [jmpCode.E_POP_PROC_DATA.eq]

theorem m_popLoop_aux {t : Nat} (ht : t < 256) (ha : m.a = BitVec.ofNat 8 t) :
    Does err lerr rest p (((n.pop t).map fun x => x.2.emitAddr p.reloc x.1).bind fun n => some (n.checkExit p.reloc)) (jmpCode.pl_1 err lerr rest) m k st := by
  let m0 : M := { m with stk := .ret (.lb "pl_2" :: jmpCode.pl_2 err lerr rest) :: m.stk }
  have d := m_popaddr err lerr rest (m := m0) (h.stk _) rfl ht ha
  have r0 : Reach P (jmpCode.pl_1 err lerr rest) m (jmpCode.pop_emit_addr err lerr rest) m0 := by
    refine ⟨1, ?_⟩
    rt_exec [jmpCode.pl_1.eq]
    rfl
  refine Does.pre (d.bind ?_ ?_) r0 rfl
  · intro n1 n2 e1 e2 hc
    cases e2; rw [checkExit_cp]; exact hc
  · intro n1 m1 e1 d1 c1 _
    refine Does.pre (m_check err lerr rest d1.rep (d1.stk.trans hs)) ⟨2, ?_⟩ rfl
    rt_exec [jmpCode.pl_2.eq]

omit h hs in
theorem ePopLoop_eq (r : Nat) (n : NS) (t : Parse.LT) : n.ePopLoop r t = ((n.pop (ltNum t)).map fun x => x.2.emitAddr r x.1).bind fun n => some (n.checkExit r) := by
  unfold NS.ePopLoop
  cases n.pop (ltNum t) <;> rfl

/-- `E_POP_LOOP`. -/
theorem m_popLoop : Does err lerr rest p (n.ePopLoop p.reloc .DO_LOOP) (jmpCode.E_POP_LOOP err lerr rest) m k st := by
  have d := m_popLoop_aux err lerr rest (m := { m with a := 65#8, z := false, n := false }) (k := k) (st := st) h hs (t := 65) (by decide) rfl
  rw [ePopLoop_eq]
  refine d.pre ⟨2, ?_⟩ rfl
  rt_exec [jmpCode.E_POP_LOOP.eq]
  rfl

/-- `E_POP_REPEAT`. -/
theorem m_popRepeat : Does err lerr rest p (n.ePopLoop p.reloc .REPEAT) (jmpCode.E_POP_REPEAT err lerr rest) m k st := by
  have d := m_popLoop_aux err lerr rest (m := { m with a := 66#8, z := false, n := false }) (k := k) (st := st) h hs (t := 66) (by decide) rfl
  rw [ePopLoop_eq]
  refine d.pre ⟨2, ?_⟩ rfl
  rt_exec [jmpCode.E_POP_REPEAT.eq]
  rfl

omit h hs in
theorem ePopFor_eq (r : Nat) (n : NS) : n.ePopFor r = ((({ n with cp := n.cp - 1 } : NS).pop 192).map fun x => x.2.emitAddr r x.1).bind fun n =>
    ((n.pop 2).map fun x => x.2.patch r x.1).bind fun n => some (n.checkExit r) := by
  unfold NS.ePopFor
  show (match ({ n with cp := n.cp - 1 } : NS).pop 192 with | none => none | some (p, n) => match (n.emitAddr r p).pop 2 with | none => none | some (p, n) => some ((n.patch r p).checkExit r)) = _
  cases ({ n with cp := n.cp - 1 } : NS).pop 192 with
  | none => rfl
  | some x =>
    simp only [Option.map, Option.bind]
    cases (x.2.emitAddr r x.1).pop 2 <;> rfl

/-- `E_POP_FOR`. -/
theorem m_popFor (hp : p.prog < n.cp) : Does err lerr rest p (n.ePopFor p.reloc) (jmpCode.E_POP_FOR err lerr rest) m k st := by
  have hcp := h.cp
  have o : (m.zp.opos - 1#8).toNat + 1 = m.jv.op.toNat := by
    have : m.jv.op.toNat = m.zp.opos.toNat := rfl
    have := m.zp.opos.isLt
    rw [BitVec.toNat_sub]; simp; omega
  let m0 : M := { m with a := 192#8, z := false, n := true, zp := { m.zp with opos := m.zp.opos - 1#8 }, stk := .ret (.lb "pf_1" :: jmpCode.pf_1 err lerr rest) :: m.stk }
  have r0 : Reach P (jmpCode.E_POP_FOR err lerr rest) m (jmpCode.pop_emit_addr err lerr rest) m0 := by
    refine ⟨3, ?_⟩
    rt_exec [jmpCode.E_POP_FOR.eq]
    rfl
  have d := m_popaddr err lerr rest (m := m0) (JRep.back h (d := 1) (by omega) (m.zp.opos - 1#8) o _) rfl (t := 192) (by decide) rfl
  rw [ePopFor_eq]
  refine Does.pre (d.bind ?_ ?_) r0 rfl
  · intro n1 n2 e1 e2 hc
    obtain ⟨n3, e3, e4⟩ := Option.bind_eq_some_iff.1 e2
    cases e4
    rw [checkExit_cp, poppatch_cp e3]; exact hc
  · intro n1 m1 e1 d1 c1 _
    let m2 : M := { m1 with a := 2#8, z := false, n := false, stk := .ret (.lb "pf_2" :: jmpCode.pf_2 err lerr rest) :: m1.stk }
    have d2 := m_poppatch err lerr rest (m := m2) (d1.rep.stk _) rfl (t := 2) (by decide) (by decide) rfl
    refine Does.pre (m := m2) (d2.bind ?_ ?_) ⟨3, ?_⟩ rfl
    · intro n1 n2 e1 e2 hc
      cases e2; rw [checkExit_cp]; exact hc
    · intro n3 m3 e3 d3 c3 _
      refine Does.pre (m_check err lerr rest d3.rep (d3.stk.trans (d1.stk.trans hs))) ⟨2, ?_⟩ rfl
      rt_exec [jmpCode.pf_2.eq]
    · rt_exec [jmpCode.pf_1.eq]
      rfl

omit h hs in
theorem ePopWhile_eq (r : Nat) (n : NS) : n.ePopWhile r = (some { n with cp := n.cp + 2 }).bind fun n => ((n.pop 128).map fun x => x.2.patch r x.1).bind fun n =>
    ((({ n with cp := n.cp - 2 } : NS).pop 67).map fun x => x.2.emitAddr r x.1).bind fun n => some (n.checkExit r) := by
  unfold NS.ePopWhile
  show (match ({ n with cp := n.cp + 2 } : NS).pop 128 with | none => none | some (p, n) => match ({ (n.patch r p) with cp := (n.patch r p).cp - 2 } : NS).pop 67 with | none => none | some (p, n) => some ((n.emitAddr r p).checkExit r)) = _
  simp only [Option.bind]
  cases ({ n with cp := n.cp + 2 } : NS).pop 128 with
  | none => rfl
  | some x =>
    simp only [Option.map]
    cases ({ (x.2.patch r x.1) with cp := (x.2.patch r x.1).cp - 2 } : NS).pop 67 <;> rfl

/-- `E_POP_WHILE`. -/
theorem m_popWhile : Does err lerr rest p (n.ePopWhile p.reloc) (jmpCode.E_POP_WHILE err lerr rest) m k st := by
  have hcp := h.cp
  let m0 : M := { m with a := 128#8, z := false, n := true, stk := .ret (.lb "pw_1" :: jmpCode.pw_1 err lerr rest) :: m.stk }
  have r0 : Reach P (jmpCode.E_POP_WHILE err lerr rest) m (jmpCode.inc_opos_2 err lerr rest) m0 := by
    refine ⟨2, ?_⟩
    rt_exec [jmpCode.E_POP_WHILE.eq]
    rfl
  have d := m_inc2 err lerr rest (m := m0) (h.stk _) rfl
  rw [ePopWhile_eq]
  refine Does.pre (d.bind ?_ ?_) r0 rfl
  · intro n1 n2 e1 e2 hc
    obtain ⟨n3, e3, e4⟩ := Option.bind_eq_some_iff.1 e2
    obtain ⟨n4, e5, e6⟩ := Option.bind_eq_some_iff.1 e4
    cases e6
    have h1 := poppatch_cp e3
    have h2 := popaddr_cp e5
    cases e1
    simp only at h1 h2 hc
    rw [checkExit_cp]; omega
  · intro n1 m1 e1 d1 c1 a1
    let m2 : M := { m1 with stk := .ret (.lb "pw_2" :: jmpCode.pw_2 err lerr rest) :: m1.stk }
    have d2 := m_poppatch err lerr rest (m := m2) (d1.rep.stk _) rfl (t := 128) (by decide) (by decide) a1
    refine Does.pre (m := m2) (d2.bind ?_ ?_) ⟨2, ?_⟩ rfl
    · intro n2 n3 e2 e3 hc
      obtain ⟨n4, e5, e6⟩ := Option.bind_eq_some_iff.1 e3
      cases e6
      have h1 := poppatch_cp e2
      have h2 := popaddr_cp e5
      cases e1
      simp only at h1 h2 hc
      rw [checkExit_cp]; omega
    · intro n3 m3 e3 d3 c3 _
      have h3 := d3.rep
      have hcp3 := h3.cp
      have h1 := poppatch_cp e3
      cases e1
      simp only at h1
      have o : (m3.zp.opos - 1#8 - 1#8).toNat + 2 = m3.jv.op.toNat := by
        have : m3.jv.op.toNat = m3.zp.opos.toNat := rfl
        have := m3.zp.opos.isLt
        rw [BitVec.toNat_sub, BitVec.toNat_sub]; simp; omega
      let m4 : M := { m3 with a := 67#8, z := decide (m3.zp.opos - 1#8 - 1#8 = 0#8), n := topBit (m3.zp.opos - 1#8 - 1#8), zp := { m3.zp with opos := m3.zp.opos - 1#8 - 1#8 },
                               stk := .ret (.lb "pw_3" :: jmpCode.pw_3 err lerr rest) :: m3.stk }
      have d4 := m_popaddr err lerr rest (m := m4) (JRep.back h3 (d := 2) (by omega) (m3.zp.opos - 1#8 - 1#8) o _) rfl (t := 67) (by decide) rfl
      refine Does.pre (m := m4) (d4.bind ?_ ?_) ⟨5, ?_⟩ rfl
      · intro n1 n2 e1 e2 hc
        cases e2; rw [checkExit_cp]; exact hc
      · intro n5 m5 e5 d5 c5 _
        refine Does.pre (m_check err lerr rest d5.rep (d5.stk.trans (d3.stk.trans (d1.stk.trans hs)))) ⟨2, ?_⟩ rfl
        rt_exec [jmpCode.pw_3.eq]
      · rt_exec [jmpCode.pw_2.eq]
        rfl
    · rt_exec [jmpCode.pw_1.eq]
      rfl

/-- The repetition of `E_POP_IF`. -/
theorem m_elifs : Does err lerr rest p (some (NS.popElifs p.reloc n.loops n)) (jmpCode.pi_1 err lerr rest) m k st := by
  generalize hl : n.loops = l
  induction l generalizing n m with
  | nil =>
    have hz : m.ram 179#16 = 0#8 := h.no_loops hl
    unfold Does NS.popElifs
    simp only
    rw [if_pos (JRep.cp_lt h)]
    refine ⟨?_, ⟨4, ?_⟩, ?_⟩
    rotate_left
    · rt_exec [jmpCode.pi_1.eq, jmpCode.pi_no.eq, hz, hs]
      rfl
    · refine ⟨⟨?_, ?_, rfl⟩, rfl, trivial⟩
      · rw [← hl]; exact h.stk st
      · exact Fr.stk st
  | cons e es ih =>
    have he := h.ents e (by rw [hl]; exact List.mem_cons_self ..)
    obtain ⟨t1, t2⟩ := h.top_type hl
    have t1' : m.ram (idx 1021#16 (m.ram 179#16)) = BitVec.ofNat 8 e.type := t1
    have t2' : ¬ m.ram 179#16 = 0#8 := t2
    have e0 : ltNum .ELIF = e.type ↔ 131#8 = BitVec.ofNat 8 e.type := by
      rw [show (131#8 : B) = BitVec.ofNat 8 131 from rfl, of8 (by omega) he.type]; rfl
    unfold NS.popElifs
    by_cases hx : ltNum .ELIF = e.type
    · rw [if_pos hx]
      have hx' := e0.1 hx
      let m0 : M := { m with y := m.ram 179#16, a := 131#8, z := true, n := false, c := true, stk := .ret (.lb "pi_1" :: jmpCode.pi_1 err lerr rest) :: m.stk }
      have r0 : Reach P (jmpCode.pi_1 err lerr rest) m (jmpCode.pop_patch_codep err lerr rest) m0 := by
        refine ⟨6, ?_⟩
        rt_exec [jmpCode.pi_1.eq, jmpCode.pi_check.eq, t2', t1', ← hx']
        rfl
      have d := m_poppatch err lerr rest (m := m0) (h.stk _) rfl (t := 131) (by decide) (by decide) rfl
      have ep : n.pop 131 = some (e.pos, { n with loops := es }) := by
        unfold NS.pop
        rw [hl]; simp only
        rw [if_pos (.inl hx)]
      rw [ep] at d
      have d' := d.bind (f := fun n => some (NS.popElifs p.reloc n.loops n)) (k := k) (st := st) (Y := fun _ => True) ?_ ?_
      · rw [← popElifs_loops p.reloc es es (n.patch p.reloc e.pos)]
        exact d'.pre r0 rfl
      · intro n1 n2 e1 e2 hc
        cases e2; rw [popElifs_cp]; exact hc
      · intro n1 m1 e1 d1 c1 _
        cases e1
        refine Does.pre (ih (n := NS.patch p.reloc { n with loops := es } e.pos) (m := m1) d1.rep (d1.stk.trans hs) rfl) ⟨1, ?_⟩ rfl
        rt_exec
    · rw [if_neg hx]
      have hx' : ¬ 131#8 = BitVec.ofNat 8 e.type := fun h' => hx (e0.2 h')
      unfold Does
      simp only
      rw [if_pos (JRep.cp_lt h)]
      refine ⟨?_, ⟨8, ?_⟩, ?_⟩
      rotate_left
      · rt_exec [jmpCode.pi_1.eq, jmpCode.pi_no.eq, t2', t1', sub_eq0, hx', hs]
        rfl
      · refine ⟨⟨?_, ?_, rfl⟩, rfl, trivial⟩
        · rw [← hl]; exact h.stk st
        · exact Fr.stk st

omit h hs in
theorem ePopIf_eq (r : Nat) (n : NS) : n.ePopIf r = ((n.pop 130).map fun x => x.2.patch r x.1).bind fun n => some (NS.popElifs r n.loops n) := by
  unfold NS.ePopIf
  show (match n.pop 130 with | none => none | some (p, n) => some (NS.popElifs r n.loops (n.patch r p))) = _
  cases n.pop 130 <;> rfl

/-- `E_POP_IF`. -/
theorem m_popIf : Does err lerr rest p (n.ePopIf p.reloc) (jmpCode.E_POP_IF err lerr rest) m k st := by
  let m0 : M := { m with a := 130#8, z := false, n := true, stk := .ret (.lb "pi_1" :: jmpCode.pi_1 err lerr rest) :: m.stk }
  have r0 : Reach P (jmpCode.E_POP_IF err lerr rest) m (jmpCode.pop_patch_codep err lerr rest) m0 := by
    refine ⟨3, ?_⟩
    rt_exec [jmpCode.E_POP_IF.eq, jmpCode.pi_check.eq]
    rfl
  have d := m_poppatch err lerr rest (m := m0) (h.stk _) rfl (t := 130) (by decide) (by decide) rfl
  rw [ePopIf_eq]
  refine Does.pre (d.bind ?_ ?_) r0 rfl
  · intro n1 n2 e1 e2 hc
    cases e2; rw [popElifs_cp]; exact hc
  · intro n1 m1 e1 d1 c1 _
    refine Does.pre (m_elifs err lerr rest (m := m1) d1.rep (d1.stk.trans hs)) ⟨1, ?_⟩ rfl
    rt_exec

/-- `E_ELSEIF`. -/
theorem m_elseIf (hp : HasLast p n) : Does err lerr rest p (n.eElseIf p.reloc) (jmpCode.E_ELSEIF err lerr rest) m k st := by
  have hlow := h.low; have hlt := h.prog_lt
  let m0 : M := { m with a := 129#8, z := false, n := true, stk := .ret (.lb "ei_1" :: jmpCode.ei_1 err lerr rest) :: m.stk }
  have r0 : Reach P (jmpCode.E_ELSEIF err lerr rest) m (jmpCode.pop_codep err lerr rest) m0 := by
    refine ⟨2, ?_⟩
    rt_exec [jmpCode.E_ELSEIF.eq]
    rfl
  have hpop := m_pop err lerr rest (m := m0) (h.stk _) rfl (t := 129) (by decide) rfl
  unfold NS.eElseIf
  show Does err lerr rest p (match n.pop 129 with | none => none | some (q, n) => match n.ePushLT with | none => none | some n => some (n.patch p.reloc q)) _ m k st
  cases hx : n.pop 129 with
  | none =>
    rw [hx] at hpop
    exact r0.errs hpop
  | some x =>
    obtain ⟨q, n'⟩ := x
    rw [hx] at hpop
    simp only at hpop
    obtain ⟨m1, r1, d1, w1, c1, z1⟩ := hpop
    obtain ⟨e1, e2, e3, e4⟩ := pop_ent h hx
    have e3 := e3 (by decide)
    have hx1 : ¬ m1.x = 0#8 := by
      intro e
      have hw := congrArg BitVec.toNat w1
      rw [word_toNat, e, w16 (by omega)] at hw
      have := m1.a.isLt
      simp at hw; omega
    let m2 : M := { m1 with zp := { m1.zp with tmp1h := m1.x }, stk := .ret (.lb "ei_2" :: jmpCode.ei_2 err lerr rest) :: .byte m1.a :: m1.stk }
    have r2 : Reach P (.lb "ei_1" :: jmpCode.ei_1 err lerr rest) m1 (jmpCode.E_PUSH_LT err lerr rest) m2 := by
      refine ⟨4, ?_⟩
      rt_exec [jmpCode.ei_1.eq]
      rfl
    have d3 := m_pushLT err lerr rest (m := m2) (d1.rep.stk _) rfl (by unfold HasLast; rw [e4.1, e4.2]; exact hp)
    have e : (match n'.ePushLT with | none => none | some n => some (n.patch p.reloc q)) = n'.ePushLT.bind fun n => some (n.patch p.reloc q) := by
      cases n'.ePushLT <;> rfl
    simp only
    rw [e]
    refine Does.pre (Does.step (d3.bind ?_ ?_) d1 (r1.trans r2) rfl) r0 rfl
    · intro n1 n2 e1 e2 hc
      cases e2; exact hc
    · intro n4 m4 e5 d4 c4 t4
      have s4 : m4.stk = .byte m1.a :: .ret k :: st := d4.stk.trans (by rw [d1.stk]; show .byte m1.a :: m.stk = _; rw [hs])
      have x4 : m4.zp.tmp1h = m1.x := t4.2
      let m5 : M := { m4 with a := m1.a, x := m1.x, z := false, n := topBit m1.x, stk := .ret k :: st }
      have r5 : Reach P (.lb "ei_2" :: jmpCode.ei_2 err lerr rest) m4 (jmpCode.patch_codep err lerr rest) m5 := by
        refine ⟨4, ?_⟩
        rt_exec [jmpCode.ei_2.eq, s4, x4, hx1]
        rfl
      obtain ⟨m6, r6, d6, y6, c6, t6⟩ := m_patch err lerr rest (m := m5) (k := k) (st := st) (d4.rep.stk _) rfl w1 e1 e3
      unfold Does
      simp only
      rw [if_pos (JRep.cp_lt d6.rep)]
      exact ⟨m6, r5.trans r6, Done.of (m0 := m5) rfl d6, c6, trivial⟩

end
end FB.Eng
