import Verif.Rt.Core
/-!
# What each short routine does

For every routine of `coreCode`, the view of the machine when it ends.
-/
namespace FB.Rt
open Ins Opd

/-- The routine ends with the view `v`. -/
def Does (P k : Code) (m : M) (v : View) : Prop := ∃ m', Halts P k m m' ∧ m'.view = v

theorem Reach.does {P k k' : Code} {m m1 : M} {v : View} (h : Reach P k m k' m1) (h' : Does P k' m1 v) : Does P k m v := by
  obtain ⟨m', h1, h2⟩ := h'; exact ⟨m', h.halts h1, h2⟩

theorem Does.cast {P k : Code} {m : M} {v v' : View} (h : Does P k m v) (e : v = v') : Does P k m v' := e ▸ h

theorem reach_lb {P k k' : Code} {m m' : M} {l : String} (h : Reach P k m k' m') : Reach P (.lb l :: k) m k' m' :=
  Reach.step rfl h

theorem Does.lb {P k : Code} {m : M} {v : View} {l : String} (h : Does P k m v) : Does P (.lb l :: k) m v :=
  Reach.does (⟨1, rfl⟩ : Reach P (.lb l :: k) m k m) h

/-- A call: the routine starts with `jsr pushAX` and goes on at `k`. -/
theorem call_push {k : Code} {m : M} (he : Entry m) {v : View}
    (h : ∀ m1, m1.view = m.view.push (word m.x m.x) → Does coreCode k m1 v) :
    Does coreCode (.ins (.jsr "pushAX") :: k) m v := by
  obtain ⟨m1, r1, v1⟩ := pushAX { m with stk := .ret k :: m.stk } he k m.stk rfl
  refine Reach.does (Reach.step ?_ r1) (h m1 v1)
  simp [step, jump]

/-- The same for `jsr get_op_var`. -/
theorem reach_getvar (k : Code) (m : M) : ∃ m1, Reach coreCode (.ins (.jsr "get_op_var") :: k) m k m1 ∧
    m1.view = { m.view with ax := vaddr m.zp.vpage (m.ram m.view.cp), cp := m.view.cp + 1 } ∧
    m1.zp.tmp2 = m.zp.tmp2 ∧ m1.zp.tmp2h = m.zp.tmp2h := by
  obtain ⟨m1, r1, v1, t1, t2⟩ := getvar { m with stk := .ret k :: m.stk } k m.stk rfl
  refine ⟨m1, Reach.step ?_ r1, v1, t1, t2⟩
  simp [step, jump]

theorem call_getvar {k : Code} {m : M} {v : View}
    (h : ∀ m1, m1.view = { m.view with ax := vaddr m.zp.vpage (m.ram m.view.cp), cp := m.view.cp + 1 } → Does coreCode k m1 v) :
    Does coreCode (.ins (.jsr "get_op_var") :: k) m v := by
  obtain ⟨m1, r1, v1, -⟩ := reach_getvar k m
  exact r1.does (h m1 v1)

/-! ### Constants -/

theorem num_does (m : M) : Does coreCode coreCode.EXE_NUM m
    { m.view with ax := word (m.view.ram m.view.cp) (m.view.ram (m.view.cp + 1)), cp := m.view.cp + 2 } := by
  obtain ⟨m1, r1, e1⟩ : ∃ m1, Reach coreCode coreCode.EXE_NUM m coreCode.inc_cptr_2 m1 ∧
      m1.view = { m.view with ax := word (m.view.ram m.view.cp) (m.view.ram (m.view.cp + 1)) } := by
    refine ⟨?_, ⟨6, ?_⟩, ?_⟩
    rotate_left
    · rw [coreCode.EXE_NUM.eq]
      rt_exec [idx0, idx1]
      rfl
    · rfl
  obtain ⟨m2, h2, e2⟩ := inc2 m1
  exact ⟨m2, r1.halts h2, by rw [e2, e1]⟩

theorem byte_does (m : M) : Does coreCode coreCode.EXE_BYTE m
    { m.view with ax := word (m.view.ram m.view.cp) 0, cp := m.view.cp + 1 } := by
  obtain ⟨m1, r1, e1⟩ : ∃ m1, Reach coreCode coreCode.EXE_BYTE m coreCode.inc_cptr_1 m1 ∧
      m1.view = { m.view with ax := word (m.view.ram m.view.cp) 0 } := by
    refine ⟨?_, ⟨3, ?_⟩, ?_⟩
    rotate_left
    · rw [coreCode.EXE_BYTE.eq]
      rt_exec []
      rfl
    · rfl
  obtain ⟨m2, h2, e2⟩ := inc1 m1
  exact ⟨m2, r1.halts h2, by rw [e2, e1]⟩

theorem cstring_does (m : M) : Does coreCode coreCode.EXE_CSTRING m
    { m.view with ax := m.view.cp, cp := m.view.cp + 1 + BitVec.ofNat 16 (m.view.ram m.view.cp).toNat } := by
  have := m.zp.cptr.isLt; have := m.zp.cptrh.isLt
  have hl := (m.ram (word m.zp.cptr m.zp.cptrh)).isLt
  cases hz : addC m.zp.cptr (m.ram (word m.zp.cptr m.zp.cptrh)) true
  all_goals
    have hz' := congrArg Bool.toNat hz
    rw [addC_toNat] at hz'
    simp only [Bool.toNat_true, Bool.toNat_false] at hz'
  · refine ⟨?_, ⟨12, ?_⟩, ?_⟩
    rotate_left
    · rw [coreCode.EXE_CSTRING.eq]
      rt_exec [hz, idx0, coreCode.inc_cptr_hi.eq, coreCode.cs_xit.eq]
      rfl
    · simp only [M.view, View.mk.injEq, true_and, and_true]
      apply BitVec.eq_of_toNat_eq
      simp
      omega
  · refine ⟨?_, ⟨14, ?_⟩, ?_⟩
    rotate_left
    · rw [coreCode.EXE_CSTRING.eq]
      rt_exec [hz, idx0, coreCode.inc_cptr_hi.eq, coreCode.cs_xit.eq]
      rfl
    · simp only [M.view, View.mk.injEq, true_and, and_true]
      apply BitVec.eq_of_toNat_eq
      simp
      omega

theorem zero_does (m : M) : Does coreCode coreCode.EXE_0 m { m.view with ax := 0 } := by
  refine ⟨?_, ⟨3, ?_⟩, ?_⟩
  rotate_left
  · rw [coreCode.EXE_0.eq]
    rt_exec []
    rfl
  · rfl

theorem one_does (m : M) : Does coreCode coreCode.EXE_1 m { m.view with ax := 1 } := by
  refine ⟨?_, ⟨3, ?_⟩, ?_⟩
  rotate_left
  · rw [coreCode.EXE_1.eq]
    rt_exec []
    rfl
  · rfl

/-! ### The stack -/

theorem push_does (m : M) (he : Entry m) : Does coreCode coreCode.EXE_PUSH m (m.view.push (word m.x m.x)) := by
  rw [coreCode.EXE_PUSH.eq]
  exact call_push he fun m1 e1 => ⟨m1, ⟨1, rfl⟩, e1⟩

theorem push_num_does (m : M) (he : Entry m) : Does coreCode coreCode.EXE_PUSH_NUM m
    { m.view.push (word (m.view.ram m.view.cp) (m.view.ram (m.view.cp + 1))) with cp := m.view.cp + 2 } := by
  rw [coreCode.EXE_PUSH_NUM.eq]
  refine call_push he fun m1 e1 => ?_
  refine (num_does m1).lb.cast ?_
  rw [e1]; rfl

theorem push_byte_does (m : M) (he : Entry m) : Does coreCode coreCode.EXE_PUSH_BYTE m
    { m.view.push (word (m.view.ram m.view.cp) 0) with cp := m.view.cp + 1 } := by
  rw [coreCode.EXE_PUSH_BYTE.eq]
  refine call_push he fun m1 e1 => ?_
  refine (byte_does m1).lb.cast ?_
  rw [e1]; rfl

theorem push_0_does (m : M) (he : Entry m) : Does coreCode coreCode.EXE_PUSH_0 m (m.view.push 0) := by
  rw [coreCode.EXE_PUSH_0.eq]
  refine call_push he fun m1 e1 => ?_
  refine (zero_does m1).lb.cast ?_
  rw [e1]; rfl

theorem push_1_does (m : M) (he : Entry m) : Does coreCode coreCode.EXE_PUSH_1 m (m.view.push 1) := by
  rw [coreCode.EXE_PUSH_1.eq]
  refine call_push he fun m1 e1 => ?_
  refine (one_does m1).lb.cast ?_
  rw [e1]; rfl

/-! ### Memory -/

/-- The word at an address. -/
def View.peek (v : View) (a : W) : W := word (v.ram a) (v.ram (a + 1))

theorem peek_does (m : M) : Does coreCode coreCode.EXE_PEEK m { m.view with ax := word (m.view.ram m.view.ax) 0 } := by
  refine ⟨?_, ⟨6, ?_⟩, ?_⟩
  rotate_left
  · rw [coreCode.EXE_PEEK.eq]
    rt_exec [coreCode.pk_load.eq, page0]
    rfl
  · rfl

theorem dpeek_does (m : M) : Does coreCode coreCode.EXE_DPEEK m { m.view with ax := m.view.peek m.view.ax } := by
  refine ⟨?_, ⟨6, ?_⟩, ?_⟩
  rotate_left
  · rw [coreCode.EXE_DPEEK.eq]
    rt_exec [page0, page1]
    rfl
  · rfl

theorem byte_peek_does (m : M) : Does coreCode coreCode.EXE_BYTE_PEEK m
    { m.view with ax := word (m.view.ram ((m.view.ram m.view.cp).setWidth 16)) 0, cp := m.view.cp + 1 } := by
  obtain ⟨m1, r1, e1⟩ : ∃ m1, Reach coreCode coreCode.EXE_BYTE_PEEK m coreCode.inc_cptr_1 m1 ∧
      m1.view = { m.view with ax := word (m.view.ram ((m.view.ram m.view.cp).setWidth 16)) 0 } := by
    refine ⟨?_, ⟨5, ?_⟩, ?_⟩
    rotate_left
    · rw [coreCode.EXE_BYTE_PEEK.eq]
      rt_exec []
      rfl
    · have : ∀ b : B, idx 0#16 b = b.setWidth 16 := by
        intro b; apply BitVec.eq_of_toNat_eq; simp [idx]
      simp [M.view, this]
  obtain ⟨m2, h2, e2⟩ := inc1 m1
  exact ⟨m2, r1.halts h2, by rw [e2, e1]⟩

theorem poke_does (m : M) : Does coreCode coreCode.EXE_POKE m { m.view with ram := upd m.view.ram m.view.saddr (lo m.view.ax) } := by
  refine ⟨?_, ⟨3, ?_⟩, ?_⟩
  rotate_left
  · rw [coreCode.EXE_POKE.eq]
    rt_exec []
    rfl
  · simp [M.view, idx0, lo_word]

theorem dpoke_does (m : M) : ∃ ax, Does coreCode coreCode.EXE_DPOKE m
    { m.view with ax := ax, ram := updMem2 m.view.ram m.view.saddr m.view.ax } := by
  refine ⟨word m.x m.x, ?_, ⟨6, ?_⟩, ?_⟩
  rotate_left
  · rw [coreCode.EXE_DPOKE.eq]
    rt_exec []
    rfl
  · simp [M.view, idx0, idx1, upd2_eq _ _ _ _ _ rfl]

theorem saddr_does (m : M) : Does coreCode coreCode.EXE_SADDR m { m.view with saddr := m.view.ax } := by
  refine ⟨?_, ⟨3, ?_⟩, ?_⟩
  rotate_left
  · rw [coreCode.EXE_SADDR.eq]
    rt_exec []
    rfl
  · rfl

theorem byte_poke_does (m : M) : ∃ ax, Does coreCode coreCode.EXE_BYTE_POKE m
    { m.view with ax := ax, cp := m.view.cp + 1, ram := upd m.view.ram ((m.view.ram m.view.cp).setWidth 16) (lo m.view.ax) } := by
  obtain ⟨m1, ax, r1, e1⟩ : ∃ m1 ax, Reach coreCode coreCode.EXE_BYTE_POKE m coreCode.inc_cptr_1 m1 ∧
      m1.view = { m.view with ax := ax, ram := upd m.view.ram ((m.view.ram m.view.cp).setWidth 16) (lo m.view.ax) } := by
    refine ⟨?_, word (m.view.ram m.view.cp) m.a, ⟨6, ?_⟩, ?_⟩
    rotate_left
    · rw [coreCode.EXE_BYTE_POKE.eq]
      rt_exec [idx0]
      rfl
    · have : ∀ b : B, idx 0#16 b = b.setWidth 16 := by
        intro b; apply BitVec.eq_of_toNat_eq; simp [idx]
      simp [M.view, this, lo_word]
  obtain ⟨m2, h2, e2⟩ := inc1 m1
  exact ⟨ax, m2, r1.halts h2, by rw [e2, e1]⟩

theorem num_poke_does (m : M) : ∃ ax s, Does coreCode coreCode.EXE_NUM_POKE m
    { m.view with ax := ax, saddr := s, cp := m.view.cp + 2, ram := upd m.view.ram (m.view.peek m.view.cp) (lo m.view.ax) } := by
  obtain ⟨m1, ax, s, r1, e1⟩ : ∃ m1 ax s, Reach coreCode coreCode.EXE_NUM_POKE m coreCode.inc_cptr_2 m1 ∧
      m1.view = { m.view with ax := ax, saddr := s, ram := upd m.view.ram (m.view.peek m.view.cp) (lo m.view.ax) } := by
    refine ⟨?_, word m.a m.a, m.view.peek m.view.cp, ⟨10, ?_⟩, ?_⟩
    rotate_left
    · rw [coreCode.EXE_NUM_POKE.eq]
      rt_exec [idx0, idx1]
      rfl
    · simp [M.view, View.peek, lo_word]
  obtain ⟨m2, h2, e2⟩ := inc2 m1
  exact ⟨ax, s, m2, r1.halts h2, by rw [e2, e1]⟩

theorem inc_does (m : M) : ∃ ax, Does coreCode coreCode.EXE_INC m
    { m.view with ax := ax, ram := updMem2 m.view.ram m.view.ax (m.view.peek m.view.ax + 1) } := by
  have hm : ∀ (r : W → B) a, word (r a) (r (a + 1)) = mkW (r a) (r (a + 1)) := fun r a => (mkW_eq _ _).symm
  refine ⟨word m.a m.a, ?_⟩
  rw [View.peek, hm, inc_mem]
  by_cases h : m.ram (word m.a m.x) + 1#8 = 0#8
  · refine ⟨?_, ⟨20, ?_⟩, ?_⟩
    rotate_left
    · rt_exec [coreCode.EXE_INC.eq, coreCode.inc_xit.eq, h, page0, page1, add_ne]
      rfl
    · simp [M.view, h]
  · refine ⟨?_, ⟨20, ?_⟩, ?_⟩
    rotate_left
    · rt_exec [coreCode.EXE_INC.eq, coreCode.inc_xit.eq, h, page0, page1, add_ne]
      rfl
    · simp [M.view, h]

theorem dec_does (m : M) : ∃ ax, Does coreCode coreCode.EXE_DEC m
    { m.view with ax := ax, ram := updMem2 m.view.ram m.view.ax (m.view.peek m.view.ax - 1) } := by
  have hm : ∀ (r : W → B) a, word (r a) (r (a + 1)) = mkW (r a) (r (a + 1)) := fun r a => (mkW_eq _ _).symm
  refine ⟨word (m.ram (word m.a m.x)) m.a, ?_⟩
  rw [View.peek, hm, dec_mem]
  by_cases h : m.ram (word m.a m.x) = 0#8
  · refine ⟨?_, ⟨20, ?_⟩, ?_⟩
    rotate_left
    · rt_exec [coreCode.EXE_DEC.eq, coreCode.dec_L2.eq, h, page0, page1, sub_ne]
      rfl
    · simp [M.view, h]
  · refine ⟨?_, ⟨20, ?_⟩, ?_⟩
    rotate_left
    · rt_exec [coreCode.EXE_DEC.eq, coreCode.dec_L2.eq, h, page0, page1, sub_ne]
      rfl
    · simp [M.view, h]

/-! ### Variables -/

/-- Address of the variable in the code. -/
def View.var (v : View) : W := vaddr v.vpage (v.ram v.cp)

theorem var_addr_does (m : M) : Does coreCode coreCode.EXE_VAR_ADDR m { m.view with ax := m.view.var, cp := m.view.cp + 1 } := by
  rw [coreCode.EXE_VAR_ADDR.eq]
  exact call_getvar fun m1 e1 => ⟨m1, ⟨1, rfl⟩, e1⟩

theorem var_load_does (m : M) : Does coreCode coreCode.EXE_VAR_LOAD m
    { m.view with ax := m.view.peek m.view.var, cp := m.view.cp + 1 } := by
  rw [coreCode.EXE_VAR_LOAD.eq]
  refine call_getvar fun m1 e1 => ?_
  refine (dpeek_does m1).lb.cast ?_
  rw [e1]; rfl

theorem push_var_load_does (m : M) (he : Entry m) : Does coreCode coreCode.EXE_PUSH_VAR_LOAD m
    { m.view.push (m.view.peek m.view.var) with cp := m.view.cp + 1 } := by
  rw [coreCode.EXE_PUSH_VAR_LOAD.eq]
  refine call_push he fun m1 e1 => ?_
  refine (var_load_does m1).lb.cast ?_
  rw [e1]; rfl

theorem var_saddr_does (m : M) : Does coreCode coreCode.EXE_VAR_SADDR m
    { m.view with ax := m.view.var, saddr := m.view.var, cp := m.view.cp + 1 } := by
  rw [coreCode.EXE_VAR_SADDR.eq]
  refine call_getvar fun m1 e1 => ?_
  refine (saddr_does m1).lb.cast ?_
  rw [e1]; rfl

theorem incvar_does (m : M) : ∃ ax, Does coreCode coreCode.EXE_INCVAR m
    { m.view with ax := ax, cp := m.view.cp + 1, ram := updMem2 m.view.ram m.view.var (m.view.peek m.view.var + 1) } := by
  rw [coreCode.EXE_INCVAR.eq]
  obtain ⟨m1, r1, e1, -⟩ := reach_getvar (.lb "EXE_INC" :: coreCode.EXE_INC) m
  obtain ⟨ax, h⟩ := inc_does m1
  refine ⟨ax, r1.does (h.lb.cast ?_)⟩
  rw [e1]; rfl

theorem decvar_does (m : M) : ∃ ax, Does coreCode coreCode.EXE_DECVAR m
    { m.view with ax := ax, cp := m.view.cp + 1, ram := updMem2 m.view.ram m.view.var (m.view.peek m.view.var - 1) } := by
  rw [coreCode.EXE_DECVAR.eq]
  obtain ⟨m1, r1, e1, -⟩ := reach_getvar (.lb "EXE_DEC" :: coreCode.EXE_DEC) m
  obtain ⟨ax, h⟩ := dec_does m1
  refine ⟨ax, r1.does (h.lb.cast ?_)⟩
  rw [e1]; rfl

theorem var_store_does (m : M) : ∃ ax, Does coreCode coreCode.EXE_VAR_STORE m
    { m.view with ax := ax, cp := m.view.cp + 1, ram := updMem2 m.view.ram m.view.var m.view.ax } := by
  rw [coreCode.EXE_VAR_STORE.eq]
  let m0 : M := { m with stk := .byte m.a :: m.stk, zp := { m.zp with tmp2h := m.x } }
  have r0 : Reach coreCode (.ins pha :: .ins (stx (zp .tmp2h)) :: .ins (jsr "get_op_var") :: .lb "vs_1" :: coreCode.vs_1) m
      (.ins (jsr "get_op_var") :: .lb "vs_1" :: coreCode.vs_1) m0 := ⟨2, by rt_exec []; rfl⟩
  obtain ⟨m1, r1, e1, -, t1⟩ := reach_getvar (.lb "vs_1" :: coreCode.vs_1) m0
  have hs : m1.stk = .byte m.a :: m.stk := congrArg View.stk e1
  have ht : m1.zp.tmp2h = m.x := t1
  simp only [View.ext_iff] at e1
  obtain ⟨q1, q2, q3, q4, q5, q6, q7, q8, q9, q10, q11, q12, q13⟩ := e1
  refine ⟨word m.x m1.a, ?_, r0.halts (r1.halts ⟨9, ?_⟩), ?_⟩
  rotate_left
  · rw [coreCode.vs_1.eq]
    rt_exec [hs, page0, page1, ht]
    rfl
  · ext1
    · rfl
    · exact q2
    · exact q3
    · exact q4
    · exact q5
    · rw [show m.view.ax = word m.a m.x from rfl, upd2_eq _ _ _ m.a m.x rfl]
      have q1 : word m1.a m1.x = m.view.var := q1
      have q6 : m1.ram = m.view.ram := q6
      rw [← q1, ← q6]; rfl
    · exact q7
    · rfl
    · exact q9
    · exact q10
    · exact q11
    · exact q12
    · exact q13

theorem var_store_0_does (m : M) : ∃ ax, Does coreCode coreCode.EXE_VAR_STORE_0 m
    { m.view with ax := ax, cp := m.view.cp + 1, ram := updMem2 m.view.ram m.view.var 0 } := by
  obtain ⟨ax, h⟩ := var_store_does { m with a := 0, x := 0, z := true, n := false }
  refine ⟨ax, Reach.does (⟨3, ?_⟩ : Reach _ _ _ _ _) h⟩
  rw [coreCode.EXE_VAR_STORE_0.eq]
  rt_exec []

theorem add_var_does (m : M) : Does coreCode coreCode.EXE_ADD_VAR m
    { m.view with ax := m.view.ax + m.view.peek m.view.var, cp := m.view.cp + 1 } := by
  rw [coreCode.EXE_ADD_VAR.eq]
  let m0 : M := { m with zp := { m.zp with tmp2 := m.a, tmp2h := m.x } }
  have r0 : Reach coreCode (.ins (sta (zp .tmp2)) :: .ins (stx (zp .tmp2h)) :: .ins (jsr "get_op_var") :: .lb "av_1" :: coreCode.av_1) m
      (.ins (jsr "get_op_var") :: .lb "av_1" :: coreCode.av_1) m0 := ⟨2, by rt_exec []; rfl⟩
  obtain ⟨m1, r1, e1, t0, t1⟩ := reach_getvar (.lb "av_1" :: coreCode.av_1) m0
  have ht0 : m1.zp.tmp2 = m.a := t0
  have ht : m1.zp.tmp2h = m.x := t1
  simp only [View.ext_iff] at e1
  obtain ⟨q1, q2, q3, q4, q5, q6, q7, q8, q9, q10, q11, q12, q13⟩ := e1
  refine ⟨?_, r0.halts (r1.halts ⟨15, ?_⟩), ?_⟩
  rotate_left
  · rw [coreCode.av_1.eq]
    rt_exec [ht, ht0, idx0, idx1]
    rfl
  · ext1
    · have q1 : word m1.a m1.x = m.view.var := q1
      have q6 : m1.ram = m.view.ram := q6
      rw [View.peek, ← q1, ← q6]
      apply word_eq
      have := m.a.isLt; have := m.x.isLt; have := (m1.ram (word m1.a m1.x)).isLt; have := (m1.ram (word m1.a m1.x + 1)).isLt
      simp [M.view] at this ⊢
      omega
    · exact q2
    · exact q3
    · exact q4
    · exact q5
    · exact q6
    · exact q7
    · exact q8
    · exact q9
    · exact q10
    · exact q11
    · exact q12
    · exact q13

/-! ### Jumps -/

theorem jump_does (m : M) : ∃ ax, Does coreCode coreCode.EXE_JUMP m { m.view with ax := ax, cp := m.view.peek m.view.cp } := by
  refine ⟨m.view.peek m.view.cp, ?_, ⟨10, ?_⟩, ?_⟩
  rotate_left
  · rw [coreCode.EXE_JUMP.eq]
    rt_exec [idx0, idx1, coreCode.interpreter_jump_ax.eq, coreCode.jmp_sto.eq]
    rfl
  · rfl

theorem call_does (m : M) : ∃ ax, Does coreCode coreCode.EXE_CALL m
    { m.view with ax := ax, cp := m.view.peek m.view.cp,
                  stk := .byte (hi (m.view.cp + 2)) :: .byte (lo (m.view.cp + 2)) :: m.stk } := by
  let m1 : M := { m with stk := .byte (hi (m.view.cp + 2)) :: .byte (lo (m.view.cp + 2)) :: m.stk }
  have h1 := m.zp.cptr.isLt; have h2 := m.zp.cptrh.isLt
  have el : add8 m.zp.cptr 2#8 false = lo (m.view.cp + 2) := by
    apply BitVec.eq_of_toNat_eq; simp [lo, M.view]; omega
  have eh : add8 m.zp.cptrh 0#8 (addC m.zp.cptr 2#8 false) = hi (m.view.cp + 2) := by
    apply BitVec.eq_of_toNat_eq; simp [hi, M.view, Nat.shiftRight_eq_div_pow]; omega
  obtain ⟨m2, r2, e2⟩ : ∃ m2, Reach coreCode coreCode.EXE_CALL m coreCode.EXE_JUMP m2 ∧
      m2.view = { m1.view with ax := m2.view.ax } := by
    refine ⟨?_, ⟨8, ?_⟩, ?_⟩
    rotate_left
    · rw [coreCode.EXE_CALL.eq]
      rt_exec [el, eh]
      rfl
    · rfl
  obtain ⟨ax, h⟩ := jump_does m2
  refine ⟨ax, r2.does (h.cast ?_)⟩
  rw [e2]; rfl

theorem cjump_does (m : M) : ∃ ax, Does coreCode coreCode.EXE_CJUMP m
    { m.view with ax := ax, cp := if lowBit m.a then m.view.cp + 2 else m.view.peek m.view.cp } := by
  have h1 := m.zp.cptr.isLt; have h2 := m.zp.cptrh.isLt
  cases hb : lowBit m.a
  · obtain ⟨m2, r2, e2⟩ : ∃ m2, Reach coreCode coreCode.EXE_CJUMP m coreCode.EXE_JUMP m2 ∧
        m2.view = { m.view with ax := m2.view.ax } := by
      refine ⟨?_, ⟨2, ?_⟩, ?_⟩
      rotate_left
      · rw [coreCode.EXE_CJUMP.eq]
        rt_exec [hb]
        rfl
      · rfl
    obtain ⟨ax, h⟩ := jump_does m2
    refine ⟨ax, r2.does (h.cast ?_)⟩
    rw [e2]; rfl
  · cases hz : addC m.zp.cptr 1#8 true
    all_goals
      have hz' := congrArg Bool.toNat hz
      rw [addC_toNat] at hz'
      simp only [Bool.toNat_true, Bool.toNat_false, BitVec.toNat_ofNat] at hz'
      refine ⟨word (add8 m.zp.cptr 1#8 true) m.x, ?_, ⟨9, ?_⟩, ?_⟩
      rotate_left
      · rw [coreCode.EXE_CJUMP.eq]
        rt_exec [hb, hz, coreCode.jmp_sto.eq]
        rfl
      · simp only [M.view, View.mk.injEq, true_and, and_true, if_true]
        apply BitVec.eq_of_toNat_eq
        simp
        omega

theorem cnjump_does (m : M) : ∃ ax, Does coreCode coreCode.EXE_CNJUMP m
    { m.view with ax := ax, cp := if lowBit (m.a ^^^ 1) then m.view.cp + 2 else m.view.peek m.view.cp } := by
  obtain ⟨m2, r2, ea, e2⟩ : ∃ m2, Reach coreCode coreCode.EXE_CNJUMP m coreCode.EXE_CJUMP m2 ∧ m2.a = m.a ^^^ 1 ∧
      m2.view = { m.view with ax := m2.view.ax } := by
    refine ⟨?_, ⟨2, ?_⟩, ?_, ?_⟩
    rotate_left
    · rw [coreCode.EXE_CNJUMP.eq]
      rt_exec []
      rfl
    · rfl
    · rfl
  obtain ⟨ax, h⟩ := cjump_does m2
  refine ⟨ax, r2.does (h.cast ?_)⟩
  rw [e2, ea]; rfl

theorem ret_does (m : M) (h l : B) (st : List Slot) (hs : m.stk = .byte h :: .byte l :: st) :
    ∃ ax, Does coreCode coreCode.EXE_RET m { m.view with ax := ax, cp := word l h, stk := st } := by
  refine ⟨word l m.x, ?_, ⟨6, ?_⟩, ?_⟩
  rotate_left
  · rw [coreCode.EXE_RET.eq]
    rt_exec [hs, coreCode.ret_skip.eq]
    rfl
  · rfl

theorem cret_does (m : M) (h l : B) (st : List Slot) (hs : lowBit m.a = false → m.stk = .byte h :: .byte l :: st) :
    ∃ ax, Does coreCode coreCode.EXE_CRET m
      (if lowBit m.a then { m.view with ax := ax } else { m.view with ax := ax, cp := word l h, stk := st }) := by
  cases hb : lowBit m.a
  · obtain ⟨m2, r2, e2⟩ : ∃ m2, Reach coreCode coreCode.EXE_CRET m coreCode.EXE_RET m2 ∧
        m2.view = { m.view with ax := m2.view.ax } := by
      refine ⟨?_, ⟨3, ?_⟩, ?_⟩
      rotate_left
      · rw [coreCode.EXE_CRET.eq]
        rt_exec [hb]
        rfl
      · rfl
    obtain ⟨ax, hd⟩ := ret_does m2 h l st ((congrArg View.stk e2).trans (hs hb))
    refine ⟨ax, r2.does (hd.cast ?_)⟩
    rw [e2]; rfl
  · refine ⟨word (ror8 m.a false) m.x, ?_, ⟨4, ?_⟩, ?_⟩
    rotate_left
    · rw [coreCode.EXE_CRET.eq]
      rt_exec [hb, coreCode.ret_skip.eq]
      rfl
    · rfl

theorem cnret_does (m : M) (h l : B) (st : List Slot) (hs : lowBit (m.a ^^^ 1) = false → m.stk = .byte h :: .byte l :: st) :
    ∃ ax, Does coreCode coreCode.EXE_CNRET m
      (if lowBit (m.a ^^^ 1) then { m.view with ax := ax } else { m.view with ax := ax, cp := word l h, stk := st }) := by
  obtain ⟨m2, r2, ea, e2⟩ : ∃ m2, Reach coreCode coreCode.EXE_CNRET m coreCode.EXE_CRET m2 ∧ m2.a = m.a ^^^ 1 ∧
      m2.view = { m.view with ax := m2.view.ax } := by
    refine ⟨?_, ⟨2, ?_⟩, ?_, ?_⟩
    rotate_left
    · rw [coreCode.EXE_CNRET.eq]
      rt_exec []
      rfl
    · rfl
    · rfl
  obtain ⟨ax, hd⟩ := cret_does m2 h l st (by rw [ea]; intro hb; exact (congrArg View.stk e2).trans (hs hb))
  refine ⟨ax, r2.does (hd.cast ?_)⟩
  rw [e2, ea]

/-! ### Output -/

theorem put_does (m : M) : ∃ ax, Does coreCode coreCode.EXE_PUT m { m.view with ax := ax, out := m.out ++ [(m.view.chn, lo m.view.ax)] } := by
  refine ⟨word (m.dev m.out).a (m.dev m.out).x, ?_, ⟨2, ?_⟩, ?_⟩
  rotate_left
  · rw [coreCode.EXE_PUT.eq]
    rt_exec []
    rfl
  · simp [M.view, lo_word]

theorem byte_put_does (m : M) : ∃ ax, Does coreCode coreCode.EXE_BYTE_PUT m
    { m.view with ax := ax, cp := m.view.cp + 1, out := m.out ++ [(m.view.chn, m.view.ram m.view.cp)] } := by
  obtain ⟨m1, ax, r1, e1⟩ : ∃ m1 ax, Reach coreCode coreCode.EXE_BYTE_PUT m coreCode.inc_cptr_1 m1 ∧
      m1.view = { m.view with ax := ax, out := m.out ++ [(m.view.chn, m.view.ram m.view.cp)] } := by
    refine ⟨?_, word (m.dev m.out).a (m.dev m.out).x, ⟨4, ?_⟩, ?_⟩
    rotate_left
    · rw [coreCode.EXE_BYTE_PUT.eq]
      rt_exec []
      rfl
    · rfl
  obtain ⟨m2, h2, e2⟩ := inc1 m1
  exact ⟨ax, m2, r1.halts h2, by rw [e2, e1]⟩

theorem iochn_does (m : M) : ∃ ax, Does coreCode coreCode.EXE_IOCHN m
    { m.view with ax := ax, chn := BitVec.ofNat 8 (16 * m.view.ax.toNat) } := by
  have e : rol8 (rol8 (rol8 (rol8 m.a false) false) false) false = BitVec.ofNat 8 (16 * m.view.ax.toNat) := by
    have := m.a.isLt; have := m.x.isLt
    apply BitVec.eq_of_toNat_eq; simp [M.view]; omega
  refine ⟨word (BitVec.ofNat 8 (16 * m.view.ax.toNat)) (BitVec.ofNat 8 (16 * m.view.ax.toNat)), ?_, ⟨10, ?_⟩, ?_⟩
  rotate_left
  · rw [coreCode.EXE_IOCHN.eq]
    rt_exec [coreCode.IOCHN_16.eq, coreCode.io_1.eq, e]
    rfl
  · rfl

end FB.Rt
