import Verif.Rt.Refine
/-!
# The routines implement the instructions that the optimizer does not know

Loops, blocks of memory and strings (`Verif.Rt.ExtSpec`), in the same way as in `Verif.Rt.Refine`.
-/
namespace FB.Rt
open Ins Opd

variable {env : Env} {img : Image} {P : List Codew}

/-! ## Memory -/

/-- A memory is another one with a string. -/
theorem eq_putStr {r r' : W → B} {p : W} {s : List B} (h1 : strAt r' p = s) (h2 : ∀ a, s.length < (a - p).toNat → r' a = r a) :
    r' = putStr r p s := by
  funext a
  by_cases h : s.length < (a - p).toNat
  · rw [h2 a h, putStr_out h]
  · have ea := off_of p a
    have hl : (r' p).toNat = s.length := by rw [← strAt_length, h1]
    generalize hi : (a - p).toNat = i at *
    rw [putStr, hi, ea]
    cases i with
    | zero =>
      simp only [strMem, List.getElem?_cons_zero, Option.getD_some]
      rw [off_zero, ← hl]; simp
    | succ j =>
      subst h1
      have hj : j < (strAt r' p).length := by omega
      simp only [strMem, List.getElem?_cons_succ, List.getElem?_eq_getElem hj, Option.getD_some]
      rw [strAt_get]

/-- The copy of a string. -/
theorem copy_put {r : W → B} {s d : W} (h : Apart r s d) :
    copyDown (s + 1) (d + 1) (r s).toNat (upd r d (r s)) = putStr r d (strAt r s) := by
  refine eq_putStr (copy_str r s d h) fun a ha => ?_
  rw [strAt_length] at ha
  have hd := off_of d a
  have hl := (a - d).isLt
  rw [copyDown_out, upd, if_neg]
  · exact off_ne' _ 0 hd (off_zero d).symm hl (by omega) (by omega)
  · intro j hj
    exact off_ne' _ (j + 1) hd (off_one d j) hl (by omega) (by omega)

theorem cat_put {r : W → B} {s d : W} (h : Apart r s d) :
    copyDown (s + 1) (d + BitVec.ofNat 16 (r d).toNat + 1) ((catLen (r d) (r s)).toNat - (r d).toNat) (upd r d (catLen (r d) (r s))) =
      putStr r d ((strAt r d ++ strAt r s).take 255) := by
  refine eq_putStr (cat_str r s d h) fun a ha => ?_
  have hc := catLen_toNat (r d) (r s)
  rw [List.length_take, List.length_append, strAt_length, strAt_length] at ha
  have hd := off_of d a
  have hl := (a - d).isLt
  rw [copyDown_out, upd, if_neg]
  · exact off_ne' _ 0 hd (off_zero d).symm hl (by omega) (by omega)
  · intro j hj
    exact off_ne' _ ((r d).toNat + (j + 1)) hd (by rw [off_one, off_add]) hl (by omega) (by omega)

theorem slice_put {r : W → B} {s : W} {p c : Nat} (hp : 1 ≤ p) (hp' : p ≤ 255) (hc : c ≤ 255) (h : Apart r s LB) :
    upd (copyUp (s + BitVec.ofNat 16 (p - 1)) LB (sliceLen (r s).toNat (p - 1) c + 1) r) LB (BitVec.ofNat 8 (sliceLen (r s).toNat (p - 1) c)) =
      putStr r LB (((strAt r s).drop (p - 1)).take c) := by
  refine eq_putStr (slice_str r s p c hp hp' hc h) fun a ha => ?_
  rw [List.length_take, List.length_drop, strAt_length] at ha
  have hd := off_of LB a
  have hl := (a - LB).isLt
  rw [upd, if_neg, copyUp_out]
  · intro j hj
    exact off_ne' _ j hd rfl hl (by unfold sliceLen at hj; omega) (by unfold sliceLen at hj; omega)
  · exact off_ne' _ 0 hd (off_zero _).symm hl (by omega) (by omega)

theorem copyUp_congr {R : W → Prop} (n : Nat) (s d : W) (f g : W → B) (h : ∀ a, ¬ R a → f a = g a) (hs : ∀ x ∈ block s n, ¬ R x) :
    ∀ a, ¬ R a → copyUp s d n f a = copyUp s d n g a := by
  induction n generalizing s d f g with
  | zero => exact h
  | succ n ih =>
    intro a ha
    rw [copyUp, copyUp]
    refine ih _ _ _ _ ?_ ?_ a ha
    · intro x hx
      have h0 : f s = g s := h s (hs s (by have := block_off (a := s) (n := n + 1) (i := 0) (by omega); rwa [off_zero] at this))
      simp only [upd]; split
      · exact h0
      · exact h x hx
    · intro x hx
      obtain ⟨i, hi, rfl⟩ := List.mem_map.1 hx
      rw [off_one]
      exact hs _ (block_off (by have := List.mem_range.1 hi; omega))

theorem copyDown_congr {R : W → Prop} (n : Nat) (s d : W) (f g : W → B) (h : ∀ a, ¬ R a → f a = g a) (hs : ∀ x ∈ block s n, ¬ R x) :
    ∀ a, ¬ R a → copyDown s d n f a = copyDown s d n g a := by
  induction n generalizing f g with
  | zero => exact h
  | succ n ih =>
    intro a ha
    rw [copyDown, copyDown]
    refine ih _ _ ?_ ?_ a ha
    · intro x hx
      have h0 := h _ (hs _ (block_off (Nat.lt_succ_self n)))
      simp only [upd]; split
      · exact h0
      · exact h x hx
    · intro x hx
      obtain ⟨i, hi, rfl⟩ := List.mem_map.1 hx
      exact hs _ (block_off (by have := List.mem_range.1 hi; omega))

/-! ## Strings -/

theorem strBytes_len {m : W → B} {x : Val} {cs : List B} (hb : strBytes m x = some cs) :
    (∃ a, x = .num a ∧ cs = strAt m a) ∨ x = .ptr cs 0 := by
  cases x with
  | num a => cases hb; exact .inl ⟨a, rfl, rfl⟩
  | ptr s o =>
    simp only [strBytes] at hb
    split at hb
    · next e => subst e; cases hb; exact .inr rfl
    · cases hb

theorem strBlock_off {m : W → B} {a : W} {i : Nat} (h : i ≤ (m a).toNat) : a + BitVec.ofNat 16 i ∈ strBlock m (.num a) :=
  block_off (by omega)

/-- The string of a value is in memory. -/
theorem DRep.str {d : D} {v : View} (h : DRep env img P d v) (hp : Placed env img P) {x : Val} {w : W} {cs : List B}
    (hx : VRep env img P v.ram x w) (hb : strBytes d.mem x = some cs) (hr : ∀ a ∈ strBlock d.mem x, ¬ Reserved env img a) :
    strAt v.ram w = cs := by
  rcases strBytes_len hb with ⟨a, rfl, rfl⟩ | rfl
  · have hx : w = a := hx
    subst hx
    have h0 : v.ram w = d.mem w := h.mem w (hr w (by have := strBlock_off (m := d.mem) (a := w) (i := 0) (by omega); rwa [off_zero] at this))
    simp only [strAt, h0]
    refine List.map_congr_left fun i hi => ?_
    have hi := List.mem_range.1 hi
    exact h.mem _ (hr _ (strBlock_off (by omega)))
  · obtain ⟨a, e, hl, ha⟩ := hx.str hp h.loaded h.one
    have e : w = a := by simpa using e
    subst e
    have h0 : v.ram w = BitVec.ofNat 8 cs.length := by simpa using ha 0 _ rfl
    apply List.ext_getElem
    · rw [strAt_length, h0]; simp; omega
    · intro i h1 h2
      rw [strAt_get]
      exact ha (i + 1) _ (List.getElem?_eq_getElem h2)

theorem DRep.apartOf {d : D} {v : View} (h : DRep env img P d v) (hp : Placed env img P) {x : Val} {w p : W} {cs : List B}
    (hx : VRep env img P v.ram x w) (hb : strBytes d.mem x = some cs) (hr : ∀ a ∈ strBlock d.mem x, ¬ Reserved env img a)
    (ha : apartStr d.mem x p = true) (hk : ∀ a ∈ block p 256, ¬ Reserved env img a) (hf : ∀ a ∈ block p 256, ¬ Fixed env img P a) :
    Apart v.ram w p := by
  have hlen : (v.ram w).toNat = cs.length := by rw [← strAt_length, h.str hp hx hb hr]
  rcases strBytes_len hb with ⟨a, rfl, rfl⟩ | rfl
  · have hx : w = a := hx
    subst hx
    simp only [apartStr, Bool.or_eq_true, decide_eq_true_eq, Val.num.injEq, List.all_eq_true] at ha
    rcases ha with rfl | ha
    · exact .inl rfl
    · refine .inr fun i hi j hj e => ?_
      have := ha _ (strBlock_off (m := d.mem) (a := w) (i := i) (by rw [hlen, strAt_length] at hi; exact hi))
      rw [e, BitVec.add_comm, BitVec.add_sub_cancel] at this
      simp only [BitVec.toNat_ofNat] at this; omega
  · refine .inr fun i hi j hj e => ?_
    have hm : w + BitVec.ofNat 16 i ∈ block p 256 := e ▸ block_off (by omega)
    rw [hlen] at hi
    rcases hx with ⟨k, h1, h2⟩ | ⟨b, rfl, h2, h3⟩
    · have h2 : w = addr env img P (Codew.str cs :: k) := by simpa using h2
      subst h2
      exact hf _ hm (fixed_at h1 (by simp only [bytesOf, strMem, List.length_cons]; omega))
    · have h3 : w = img.chr := by simpa using h3
      subst h3
      refine hk _ hm ?_
      simp only [List.length_cons, List.length_nil] at hi
      rcases (by omega : i = 0 ∨ i = 1) with rfl | rfl
      · rw [off_zero]; exact .inr (.inl rfl)
      · exact .inr (.inr (.inl rfl))

/-! ## Views -/

/-- The cells of the interpreter that routines keep. -/
theorem tidy_keeps {Q k : Code} {m m' : M} (h : Halts Q k m m') (ht : tidy Q k = true) (hs : ∀ k', .ret k' ∉ m.stk) :
    m'.zp.cptr = m.zp.cptr ∧ m'.zp.cptrh = m.zp.cptrh ∧ m'.zp.vpage = m.zp.vpage ∧ m'.zp.chn = m.zp.chn ∧ m'.out = m.out := by
  simp only [tidy, List.all_cons, List.all_nil, Bool.and_true, Bool.and_eq_true] at ht
  obtain ⟨⟨q1, a1, a2, a3, a4⟩, q2, b1, b2, b3, b4⟩ := ht
  exact ⟨h.keeps .cptr a1 b1 hs, h.keeps .cptrh a2 b2 hs, h.keeps .vpage a3 b3 hs, h.keeps .chn a4 b4 hs, h.quiet q1 q2 hs⟩

theorem tidy_ext : tidy absnegCode (entry absnegCode "EXE_ABS") = true ∧ tidy sgnCode sgnCode = true ∧
    tidy forExitCode forExitCode = true ∧ tidy cmpCode cmpCode.EXE_FOR = true ∧ tidy cmpCode cmpCode.EXE_FOR_NEXT = true ∧
    tidy cmpStrCode cmpStrCode.EXE_CMP_STR = true ∧ tidy idxCode idxCode.EXE_STR_IDX = true := by decide +kernel

theorem tidy_mem : tidy memCode memCode.EXE_MOVE = true ∧ tidy memCode memCode.EXE_NMOVE = true ∧ tidy memCode memCode.EXE_MSET = true ∧
    tidy memCode memCode.EXE_COPY_STR = true ∧ tidy memCode memCode.EXE_CAT_STR = true := by decide +kernel

theorem moved_does {Q k : Code} {m m' : M} {r : W → B} (h : Halts Q k m m') (hk : Moved m m' r) (ht : tidy Q k = true)
    (hs : ∀ k', .ret k' ∉ m.stk) : Does Q k m { m.view with ax := m'.ax, ram := r, sp := m.view.sp + 2 } := by
  obtain ⟨c1, c2, c3, c4, c5⟩ := tidy_keeps h ht hs
  refine ⟨m', h, ?_⟩
  simp only [M.view, c1, c2, c3, c4, c5, hk.stk, hk.sl, hk.sh, hk.ram, hk.sptr, hk.saddr, hk.saddrh, hk.arr, hk.arrh, hk.mins]
  rfl

section
variable {m : M} {d : D} {r : List Codew}

/-- A number on the stack. -/
theorem At.stkNum {k : List Codew} (h : At env img P m d k) {i : Nat} {a : W} (hi : d.stk[i]? = some (.num a)) :
    m.stkAt (BitVec.ofNat 8 i) = a := h.rep.stk.val i _ hi

theorem sim_dpeek {a : W} (h : At env img P m d r) (hw : d.axW = some a) (ha : ∀ x ∈ [a, a + 1], ¬ Reserved env img x) :
    Sim env img P coreCode coreCode.EXE_DPEEK m (d.setAx (mkW (d.mem a) (d.mem (a + 1)))) r := by
  have hd := dpeek_does m
  rw [h.ax hw, h.rep.peekVar (ha _ (by simp)) (ha _ (by simp))] at hd
  exact simVal h hd rfl h.cp

theorem pop_does (m : M) (he : Entry m) : Does popCode popCode m
    { m.view with ax := word (m.view.sl m.view.sp) (m.view.sh m.view.sp), sp := m.view.sp + 1 } := by
  have hy : m.zp.sptr = m.y := he.symm
  refine ⟨?_, ⟨4, ?_⟩, ?_⟩
  rotate_left
  · conv => lhs; arg 3; unfold popCode
    rt_exec []
    rfl
  · simp [M.view, hy]

theorem sim_pop {x : Val} {d1 : D} (h : At env img P m d r) (hp : d.pop = some (x, d1)) :
    Sim env img P popCode popCode m (d1.setVal x) r := by
  obtain ⟨v1, g1⟩ := h.rep.popped hp
  exact ⟨_, pop_does m h.entry, g1.val v1 _, h.cp, rfl⟩

theorem sim_for_exit {x y z : Val} {st : List Val} (h : At env img P m d r) (hs : d.stk = x :: y :: z :: st) :
    Sim env img P forExitCode forExitCode m { d with stk := st } r := by
  obtain ⟨m', h1, h2, h3⟩ := for_exit_correct m h.entry
  refine ⟨_, kept_does h1 h2 h3 tidy_ext.2.2.1 h.nr, ?_, h.cp, rfl⟩
  have g := h.rep
  have g' := g.stk
  rw [hs] at g'
  have g' := g'.pop.2.pop.2.pop.2
  have e : m.view.sp + 1 + 1 + 1 = m.zp.sptr + 3 := by show m.zp.sptr + 1 + 1 + 1 = _; bv_omega
  rw [e] at g'
  exact ⟨g.ax, g.saddr, g', g.mem, g.color, g.one, g.loaded, g.vpage, g.chn, g.out, g.arr, g.mins⟩

theorem sim_for {step limit a : W} {st : List Val} (h : At env img P m d r) (hw : d.axW = some step)
    (hs : d.stk = .num limit :: .num a :: st) (hl : d.stk.length + 1 ≤ 40) (ha : ∀ x ∈ [a, a + 1], ¬ Reserved env img x) :
    Sim env img P cmpCode cmpCode.EXE_FOR m { d with
      saddr := none, stk := .num step :: .num limit :: .num a :: st,
      ax := some (.num (b2w (past step limit (mkW (d.mem a) (d.mem (a + 1)))))) } r := by
  obtain ⟨m', h1, h2, h3⟩ := for_correct m h.entry
  have g := h.rep
  have eax : m.ax = step := h.ax hw
  have e0 : m.stkAt 0 = limit := h.stkNum (i := 0) (by rw [hs]; rfl)
  have e1 : m.stkAt 1 = a := h.stkNum (i := 1) (by rw [hs]; rfl)
  have ep : m.peek a = mkW (d.mem a) (d.mem (a + 1)) := by
    show mkW (m.view.ram a) (m.view.ram (a + 1)) = _
    rw [g.mem a (ha _ (by simp)), g.mem (a + 1) (ha _ (by simp))]
  obtain ⟨c1, c2, c3, c4, c5⟩ := tidy_keeps h1 tidy_ext.2.2.2.1 h.nr
  rw [eax, e0, e1, ep] at h2
  have hsl : m'.sl = upd m.sl (m.zp.sptr - 1) m.a := h3.sl
  have hsh : m'.sh = upd m.sh (m.zp.sptr - 1) m.x := h3.sh
  have hsp : m'.zp.sptr = m.zp.sptr - 1 := h3.sptr
  have harr : m'.zp.arr = m.zp.arr := h3.arr
  have harrh : m'.zp.arrh = m.zp.arrh := h3.arrh
  have hmins : m'.zp.mins = m.zp.mins := h3.mins
  have hram : m'.ram = m.ram := h3.ram
  have hstk : m'.stk = m.stk := h3.stk
  have ev : m'.view = { m.view with
      ax := b2w (past step limit (mkW (d.mem a) (d.mem (a + 1)))), saddr := m'.view.saddr,
      sl := upd m.sl (m.zp.sptr - 1) m.a, sh := upd m.sh (m.zp.sptr - 1) m.x, sp := m.zp.sptr - 1 } := by
    have h2 : word m'.a m'.x = _ := h2
    simp only [M.view, c1, c2, c3, c4, c5, hstk, hsl, hsh, hram, hsp, harr, harrh, hmins, h2]
  refine ⟨_, ⟨m', h1, ev⟩, ?_, h.cp, rfl⟩
  have gp := g.stk.push (x := .num step) (w := m.ax) eax (by simpa using hl)
  have el : lo m.ax = m.a := lo_word _ _
  have eh : hi m.ax = m.x := hi_word _ _
  rw [el, eh, hs] at gp
  exact ⟨fun x hx => by cases hx; rfl, nofun, gp, g.mem, g.color, g.one, g.loaded, g.vpage, g.chn, g.out, g.arr, g.mins⟩

theorem sim_for_next {step limit a : W} {st : List Val} (h : At env img P m d r)
    (hs : d.stk = .num step :: .num limit :: .num a :: st) (ha : ∀ x ∈ [a, a + 1], ¬ Reserved env img x)
    (hf : ∀ x, Fixed env img P x → updMem2 d.mem a (mkW (d.mem a) (d.mem (a + 1)) + step) x = d.mem x) :
    Sim env img P cmpCode cmpCode.EXE_FOR_NEXT m { d with
      saddr := none, mem := updMem2 d.mem a (mkW (d.mem a) (d.mem (a + 1)) + step),
      ax := some (.num (b2w (past step limit (mkW (d.mem a) (d.mem (a + 1)) + step)))) } r := by
  obtain ⟨m', h1, h2, h3⟩ := for_next_correct m h.entry
  have g := h.rep
  have e0 : m.stkAt 0 = step := h.stkNum (i := 0) (by rw [hs]; rfl)
  have e1 : m.stkAt 1 = limit := h.stkNum (i := 1) (by rw [hs]; rfl)
  have e2 : m.stkAt 2 = a := h.stkNum (i := 2) (by rw [hs]; rfl)
  have ep : m.peek a = mkW (d.mem a) (d.mem (a + 1)) := by
    show mkW (m.view.ram a) (m.view.ram (a + 1)) = _
    rw [g.mem a (ha _ (by simp)), g.mem (a + 1) (ha _ (by simp))]
  obtain ⟨c1, c2, c3, c4, c5⟩ := tidy_keeps h1 tidy_ext.2.2.2.2.1 h.nr
  rw [e0, e1, e2, ep] at h2
  rw [e0, e2, ep] at h3
  have ev : m'.view = { m.view with
      ax := b2w (past step limit (mkW (d.mem a) (d.mem (a + 1)) + step)), saddr := m'.view.saddr,
      ram := updMem2 m.view.ram a (mkW (d.mem a) (d.mem (a + 1)) + step) } := by
    have h2 : word m'.a m'.x = _ := h2
    simp only [M.view, c1, c2, c3, c4, c5, h3.stk, h3.sl, h3.sh, h3.ram, h3.sptr, h3.arr, h3.arrh, h3.mins, h2]
  refine ⟨_, ⟨m', h1, ev⟩, ?_, h.cp, rfl⟩
  have g' := g.store2 h.pl (w := mkW (d.mem a) (d.mem (a + 1)) + step) (ha _ (by simp)) (ha _ (by simp)) hf
  exact ⟨fun x hx => by cases hx; rfl, nofun, g'.stk, g'.mem, g'.color, g'.one, g'.loaded, g'.vpage, g'.chn, g'.out, g'.arr, g'.mins⟩

/-- Instructions with three operands, that change memory. -/
theorem simMoved {Q q : Code} {m' : M} {x y z : W} {d1 : D} {R f : W → B} (h : At env img P m d r) (hq : Halts Q q m m')
    (ht : tidy Q q = true) (ha : args3 d = some (x, y, z, d1)) (hm : Moved m m' R)
    (h1 : ∀ a, ¬ Reserved env img a → R a = f a) (h2 : ∀ a, Reserved env img a → R a = m.ram a ∧ f a = d.mem a)
    (h3 : ∀ a, Fixed env img P a → f a = d.mem a) : Sim env img P Q q m { d1 with mem := f }.kill r := by
  refine ⟨_, moved_does hq hm ht h.nr, ?_, h.cp, rfl⟩
  obtain ⟨hs, -, e⟩ := args3_eq ha
  have g := h.rep
  have g' := g.stk
  rw [hs] at g'
  have g' := g'.pop.2.pop.2
  rw [e]
  have e2 : m.view.sp + 1 + 1 = m.view.sp + 2 := by bv_omega
  rw [e2] at g'
  have gs := g.store h.pl h1 (fun a ha => (h2 a ha).1) h3 (f := m.view.arr) (by
    rw [(h2 _ (.inr (.inr (.inr (.inl rfl))))).2, (h2 _ (.inr (.inr (.inr (.inr rfl))))).2]; exact g.arr)
  have hc := (h2 (img.chr + 1) (.inr (.inr (.inl rfl)))).1
  exact ⟨nofun, nofun, g'.mono fun x _ w hw => hw.ram hc, gs.mem, gs.color, gs.one, gs.loaded, gs.vpage, gs.chn, gs.out, gs.arr, gs.mins⟩

theorem At.args {x y z : W} {d1 : D} (h : At env img P m d r) (ha : args3 d = some (x, y, z, d1)) :
    m.stkAt 0 = y ∧ m.stkAt 1 = x ∧ m.ax = z := by
  obtain ⟨hs, hx, -⟩ := args3_eq ha
  exact ⟨h.stkNum (i := 0) (by rw [hs]; rfl), h.stkNum (i := 1) (by rw [hs]; rfl), h.rep.ax _ hx⟩

theorem sim_move {x y z : W} {d1 : D} (h : At env img P m d r) (ha : args3 d = some (x, y, z, d1))
    (hr : ∀ a ∈ block x z.toNat ++ block y z.toNat, ¬ Reserved env img a)
    (hf : ∀ a, Fixed env img P a → copyUp x y z.toNat d.mem a = d.mem a) :
    Sim env img P memCode memCode.EXE_MOVE m { d1 with mem := copyUp x y z.toNat d.mem }.kill r := by
  obtain ⟨e0, e1, e2⟩ := h.args ha
  obtain ⟨m', h1, h2⟩ := move_correct m h.entry h.rep.mins
  rw [e0, e1, e2] at h2
  have hn : ∀ a, Reserved env img a → a ∉ block y z.toNat := fun a ha hm => hr a (List.mem_append_right _ hm) ha
  exact simMoved h h1 tidy_mem.1 ha h2
    (copyUp_congr _ _ _ _ _ h.rep.mem fun a ha => hr a (List.mem_append_left _ ha))
    (fun a ha => ⟨(copy_not_mem _ _ _ _ _ (hn a ha)).1, (copy_not_mem _ _ _ _ _ (hn a ha)).1⟩) hf

theorem sim_nmove {x y z : W} {d1 : D} (h : At env img P m d r) (ha : args3 d = some (x, y, z, d1)) (hz : z.toNat ≤ 65280)
    (hr : ∀ a ∈ block x z.toNat ++ block y z.toNat, ¬ Reserved env img a)
    (hf : ∀ a, Fixed env img P a → copyDown x y z.toNat d.mem a = d.mem a) :
    Sim env img P memCode memCode.EXE_NMOVE m { d1 with mem := copyDown x y z.toNat d.mem }.kill r := by
  obtain ⟨e0, e1, e2⟩ := h.args ha
  obtain ⟨m', h1, h2⟩ := nmove_correct m h.entry h.rep.mins (by rw [e2]; exact hz)
  rw [e0, e1, e2] at h2
  have hn : ∀ a, Reserved env img a → a ∉ block y z.toNat := fun a ha hm => hr a (List.mem_append_right _ hm) ha
  exact simMoved h h1 tidy_mem.2.1 ha h2
    (copyDown_congr _ _ _ _ _ h.rep.mem fun a ha => hr a (List.mem_append_left _ ha))
    (fun a ha => ⟨(copy_not_mem _ _ _ _ _ (hn a ha)).2, (copy_not_mem _ _ _ _ _ (hn a ha)).2⟩) hf

theorem sim_mset {x y z : W} {d1 : D} (h : At env img P m d r) (ha : args3 d = some (x, y, z, d1))
    (hr : ∀ a ∈ block x y.toNat, ¬ Reserved env img a) (hf : ∀ a, Fixed env img P a → fill x y.toNat (lo z) d.mem a = d.mem a) :
    Sim env img P memCode memCode.EXE_MSET m { d1 with mem := fill x y.toNat (lo z) d.mem }.kill r := by
  obtain ⟨e0, e1, e2⟩ := h.args ha
  obtain ⟨m', h1, h2⟩ := mset_correct m h.entry
  rw [e0, e1, e2] at h2
  have hn : ∀ a, Reserved env img a → ¬ (a - x).toNat < y.toNat := fun a ha hm =>
    hr a ((mem_block (Nat.le_of_lt y.isLt)).2 hm) ha
  refine simMoved h h1 tidy_mem.2.2.1 ha h2 ?_ (fun a ha => ⟨if_neg (hn a ha), if_neg (hn a ha)⟩) hf
  intro a ha
  simp only [fill]; split
  · rfl
  · exact h.rep.mem a ha

/-- The space of a string variable. -/
theorem got_rep (h : At env img P m d r) {s : W} {q : W × (W → B)} (hs : d.saddr = some s) (hq : strDest env d.mem s = some q)
    (hr : ∀ a ∈ [s, s + 1, 0x2E5, 0x2E6] ++ block q.1 256, ¬ Reserved env img a)
    (hf : ∀ a ∈ [s, s + 1, aptr env, aptr env + 1] ++ block q.1 256, ¬ Fixed env img P a) (k : Code) :
    ∃ m' ram top, Reach memCode memCode.get_pointers { m with stk := .ret k :: m.stk } k m' ∧
      Got { m with stk := .ret k :: m.stk } m' m.stk q.1 ram top ∧
      DRep env img P { d with mem := q.2 } { m.view with ram := ram, arr := top } := by
  have g := h.rep
  have es : m.sad = s := g.saddr _ hs
  have r1 : ¬ Reserved env img s := hr _ (by simp)
  have r2 : ¬ Reserved env img (s + 1) := hr _ (by simp)
  have e1 : m.ram s = d.mem s := g.mem _ r1
  have e2 : m.ram (s + 1) = d.mem (s + 1) := g.mem _ r2
  have ef : m.free = mkW (d.mem (aptr env)) (d.mem (aptr env + 1)) := g.arr
  have hfix : ∀ a, Fixed env img P a → q.2 a = d.mem a := fun a ha => strDest_out hq a fun hm => hf a hm ha
  have hq' := hq
  unfold strDest at hq'
  split at hq'
  · next hn =>
    cases hq'
    obtain ⟨m', a1, a2⟩ := got_set { m with stk := .ret k :: m.stk } k m.stk rfl (by
      show m.ram (m.sad + 1) ≠ 0
      rw [es, e2]; exact hn)
    have ed : M.peek { m with stk := .ret k :: m.stk } (M.sad { m with stk := .ret k :: m.stk }) = mkW (d.mem s) (d.mem (s + 1)) := by
      show mkW (m.ram m.sad) (m.ram (m.sad + 1)) = _
      rw [es, e1, e2]
    rw [ed] at a2
    exact ⟨m', _, _, a1, a2, g⟩
  · next hn =>
    dsimp only at hq'
    split at hq'
    · next hc =>
      cases hq'
      generalize hfe : mkW (d.mem (aptr env)) (d.mem (aptr env + 1)) = f at *
      have hu : ∀ x, ¬ Reserved env img x → updMem2 m.ram s f x = updMem2 d.mem s f x := by
        intro x hx
        simp only [updMem2, updMem]
        split
        · rfl
        · split
          · rfl
          · exact g.mem x hx
      obtain ⟨m', a1, a2⟩ := got_alloc { m with stk := .ret k :: m.stk } k m.stk rfl (by
        show m.ram (m.sad + 1) = 0
        rw [es, e2]; exact Classical.not_not.1 hn) (by
        show m.free.toNat + 256 < (word (updMem2 m.ram m.sad m.free 0x2E5) (updMem2 m.ram m.sad m.free 0x2E6)).toNat
        rw [es, ef, hu _ (hr _ (by simp)), hu _ (hr _ (by simp)), ← mkW_eq]
        exact hc)
      have e3 : M.free { m with stk := .ret k :: m.stk } = f := ef
      have e4 : M.sad { m with stk := .ret k :: m.stk } = s := es
      rw [e3, e4] at a2
      refine ⟨m', _, _, a1, a2, ?_⟩
      have hb : ∀ a, Reserved env img a → ¬ (a - f).toNat < 256 := fun a ha hm =>
        hr a (List.mem_append_right _ ((mem_block (by omega)).2 hm)) ha
      refine g.store h.pl ?_ ?_ hfix ?_
      · intro a ha
        have n1 : a ≠ aptr env := by rintro rfl; exact ha (.inr (.inr (.inr (.inl rfl))))
        have n2 : a ≠ aptr env + 1 := by rintro rfl; exact ha (.inr (.inr (.inr (.inr rfl))))
        show _ = updMem2 _ _ _ a
        rw [updMem2_out n1 n2]
        simp only [fill]
        split
        · rfl
        · exact hu a ha
      · intro a ha
        rw [fill, if_neg (hb a ha)]
        exact updMem2_out (by rintro rfl; exact r1 ha) (by rintro rfl; exact r2 ha)
      · have n1 : aptr env ≠ aptr env + 1 := by bv_omega
        show _ = mkW (updMem2 _ _ _ (aptr env)) (updMem2 _ _ _ (aptr env + 1))
        simp only [updMem2, updMem, if_neg n1, if_true]
        rw [mkW_eq]
        exact (word_lo_hi _).symm
    · cases hq'

theorem putStr_rep {d : D} {v : View} (h : DRep env img P d v) (hp : Placed env img P) {p : W} {s : List B} (hl : s.length ≤ 255)
    (hr : ∀ a ∈ block p 256, ¬ Reserved env img a) (hf : ∀ a ∈ block p 256, ¬ Fixed env img P a) :
    DRep env img P { d with mem := putStr d.mem p s } { v with ram := putStr v.ram p s } := by
  have out : ∀ (f : W → B) a, a ∉ block p 256 → putStr f p s a = f a := by
    intro f a ha
    rw [mem_block (by omega)] at ha
    exact putStr_out (by omega)
  refine h.store hp ?_ (fun a ha => out _ a fun hm => hr a hm ha) (fun a ha => out _ a fun hm => hf a hm ha) ?_
  · intro a ha
    simp only [putStr, h.mem a ha]
  · rw [out _ _ fun hm => hr _ hm (.inr (.inr (.inr (.inl rfl)))), out _ _ fun hm => hr _ hm (.inr (.inr (.inr (.inr rfl))))]
    exact h.arr

/-- String instructions: how they start and end. -/
theorem sim_strSet {f : List B → List B → List B} {q R : Code} {d' : D} (hq : ∀ m, Reach memCode q m memCode.get_pointers { m with stk := .ret R :: m.stk })
    (hR : ∀ (m : M) (S D : W), m.y = 0 → m.zp.mins = 0x88 → word m.zp.msrc m.zp.msrch = S → word m.zp.mdst m.zp.mdsth = D → Apart m.ram S D →
      ∃ m', Halts memCode R m m' ∧ Rest m m' ∧ m'.ram = putStr m.ram D (f (strAt m.ram D) (strAt m.ram S)))
    (hl : ∀ s t, t.length ≤ 255 → (f s t).length ≤ 255) (ht : tidy memCode q = true) (h : At env img P m d r) (hs : strSet env f d = some d')
    (hr : ∀ s v Q, d.saddr = some s → d.ax = some v → strDest env d.mem s = some Q →
      ∀ a ∈ [s, s + 1, 0x2E5, 0x2E6] ++ block Q.1 256 ++ strBlock Q.2 v, ¬ Reserved env img a)
    (hf : ∀ s Q, d.saddr = some s → strDest env d.mem s = some Q →
      ∀ a ∈ [s, s + 1, aptr env, aptr env + 1] ++ block Q.1 256, ¬ Fixed env img P a) :
    Sim env img P memCode q m d' r := by
  obtain ⟨s, v, Q, cs, h1, h2, h3, h4, h5, h6, h7, rfl⟩ := strSet_eq hs
  have hr := hr s v Q h1 h2 h3
  have hf := hf s Q h1 h3
  obtain ⟨m1, ram, top, r1, g1, rep⟩ := got_rep h h1 h3 (fun a ha => hr a (List.mem_append_left _ ha)) hf R
  have hblk : ∀ a ∈ block Q.1 256, ¬ Reserved env img a := fun a ha => hr a (List.mem_append_left _ (List.mem_append_right _ ha))
  have hfix : ∀ a ∈ block Q.1 256, ¬ Fixed env img P a := fun a ha => hf a (List.mem_append_right _ ha)
  have hx : VRep env img P ram v m.ax := rep.ax v h2
  have hsb : ∀ a ∈ strBlock Q.2 v, ¬ Reserved env img a := fun a ha => hr a (List.mem_append_right _ ha)
  have e1 : strAt ram m.ax = cs := rep.str h.pl hx h4 hsb
  have e2 : strAt ram Q.1 = strAt Q.2 Q.1 := rep.str h.pl (x := .num Q.1) rfl rfl fun a ha => by
    obtain ⟨i, hi, rfl⟩ := List.mem_map.1 ha
    have := (Q.2 Q.1).isLt
    exact hblk _ (block_off (by have := List.mem_range.1 hi; omega))
  have hap : Apart ram m.ax Q.1 := rep.apartOf h.pl hx h4 hsb h6 hblk hfix
  have hS : word m1.zp.msrc m1.zp.msrch = m.ax := by rw [g1.msrc, g1.msrch]; rfl
  obtain ⟨m2, r2, k2, em⟩ := hR m1 m.ax Q.1 g1.y (g1.mins.trans h.rep.mins) hS g1.dst (by rw [g1.ram]; exact hap)
  rw [g1.ram, e1, e2] at em
  have hh : Halts memCode q m m2 := ((hq m).trans r1).halts r2
  obtain ⟨c1, c2, c3, c4, c5⟩ := tidy_keeps hh ht h.nr
  have ev : m2.view = { m.view with ax := m2.ax, ram := putStr ram Q.1 (f (strAt Q.2 Q.1) cs), arr := top } := by
    have ea : word m2.zp.arr m2.zp.arrh = top := by rw [k2.zp.arr, k2.zp.arrh, g1.arr]
    have es : word m2.zp.saddr m2.zp.saddrh = word m.zp.saddr m.zp.saddrh := by rw [k2.zp.saddr, k2.zp.saddrh, g1.saddr, g1.saddrh]
    have ep : m2.zp.sptr = m.zp.sptr := k2.zp.sptr.trans g1.sptr
    have ei : m2.zp.mins = m.zp.mins := k2.zp.mins.trans g1.mins
    have esl : m2.sl = m.sl := k2.sl.trans g1.sl
    have esh : m2.sh = m.sh := k2.sh.trans g1.sh
    have est : m2.stk = m.stk := k2.stk.trans g1.stk
    simp only [M.view, c1, c2, c3, c4, c5, ea, es, ep, ei, esl, esh, est, em]
    rfl
  refine ⟨_, ⟨m2, hh, ev⟩, ?_, h.cp, rfl⟩
  have g := putStr_rep rep h.pl (hl (strAt Q.2 Q.1) cs h7) hblk hfix
  exact ⟨nofun, nofun, g.stk, g.mem, g.color, g.one, g.loaded, g.vpage, g.chn, g.out, g.arr, g.mins⟩

theorem sim_copy_str {d' : D} (h : At env img P m d r) (hs : strSet env (fun _ s => s) d = some d')
    (hr : ∀ s v Q, d.saddr = some s → d.ax = some v → strDest env d.mem s = some Q →
      ∀ a ∈ [s, s + 1, 0x2E5, 0x2E6] ++ block Q.1 256 ++ strBlock Q.2 v, ¬ Reserved env img a)
    (hf : ∀ s Q, d.saddr = some s → strDest env d.mem s = some Q →
      ∀ a ∈ [s, s + 1, aptr env, aptr env + 1] ++ block Q.1 256, ¬ Fixed env img P a) :
    Sim env img P memCode memCode.EXE_COPY_STR m d' r := by
  refine sim_strSet copy_enter ?_ (fun _ _ h => h) tidy_mem.2.2.2.1 h hs hr hf
  intro m S D h1 h2 h3 h4 h5
  obtain ⟨m', r1, k1, e⟩ := copy_rest m h1 h2
  rw [h3, h4, copy_put h5] at e
  exact ⟨m', r1, k1, e⟩

theorem sim_cat_str {d' : D} (h : At env img P m d r) (hs : strSet env (fun s t => (s ++ t).take 255) d = some d')
    (hr : ∀ s v Q, d.saddr = some s → d.ax = some v → strDest env d.mem s = some Q →
      ∀ a ∈ [s, s + 1, 0x2E5, 0x2E6] ++ block Q.1 256 ++ strBlock Q.2 v, ¬ Reserved env img a)
    (hf : ∀ s Q, d.saddr = some s → strDest env d.mem s = some Q →
      ∀ a ∈ [s, s + 1, aptr env, aptr env + 1] ++ block Q.1 256, ¬ Fixed env img P a) :
    Sim env img P memCode memCode.EXE_CAT_STR m d' r := by
  refine sim_strSet cat_enter ?_ (fun _ _ h => by simp) tidy_mem.2.2.2.2 h hs hr hf
  intro m S D h1 h2 h3 h4 h5
  obtain ⟨m', r1, k1, e⟩ := cat_rest m h1 h2 S D h3 h4
  rw [cat_put h5] at e
  exact ⟨m', r1, k1, e⟩

theorem cmpX_range (s t : List B) : cmpX s t = 0 ∨ cmpX s t = 1 ∨ cmpX s t = 255 := by
  induction s generalizing t with
  | nil => cases t <;> simp [cmpX]
  | cons a s ih =>
    cases t with
    | nil => simp [cmpX]
    | cons b t =>
      rw [cmpX]
      split
      · exact ih t
      · split
        · exact .inr (.inl rfl)
        · exact .inr (.inr rfl)

theorem cmpW_eq (s t : List B) : cmpW s t = word (cmpX t s) (cmpX t s) := by
  obtain ⟨h1, h2, h3⟩ := cmpX_spec t s
  unfold cmpW
  split
  · next h => rw [h1.2 h]; decide
  · next h =>
    split
    · next h' => rw [h2.2 h']; decide
    · next h' =>
      rcases cmpX_range t s with e | e | e
      · rw [e]; decide
      · exact absurd (h1.1 e) h
      · exact absurd (h2.1 e) h'

theorem sim_cmp_str {x v : Val} {st : List Val} {s t : List B} (h : At env img P m d r) (hd : d.stk = x :: st) (hx : strBytes d.mem x = some s)
    (ha : d.ax = some v) (hv : strBytes d.mem v = some t) (hl : d.stk.length ≤ 40)
    (hr : ∀ a ∈ strBlock d.mem x ++ strBlock d.mem v, ¬ Reserved env img a) :
    Sim env img P cmpStrCode cmpStrCode.EXE_CMP_STR m { d with stk := .num (cmpW s t) :: st, ax := some (.num 0) } r := by
  obtain ⟨m', h1, h2⟩ := cmp_correct m h.entry
  have g := h.rep
  have gs := g.stk
  rw [hd] at gs
  have vx : VRep env img P m.ram x (m.stkAt 0) := g.stk.val 0 _ (by rw [hd]; rfl)
  have e1 : strAt m.ram (m.stkAt 0) = s := g.str h.pl vx hx fun a ha => hr a (List.mem_append_left _ ha)
  have e2 : strAt m.ram m.ax = t := g.str h.pl (g.ax _ ha) hv fun a ha => hr a (List.mem_append_right _ ha)
  rw [e1, e2] at h2
  obtain ⟨c1, c2, c3, c4, c5⟩ := tidy_keeps h1 tidy_ext.2.2.2.2.2.1 h.nr
  have h20 : word m'.a m'.x = 0 := h2.ax
  have ev : m'.view = { m.view with ax := 0, sl := upd m.sl m.zp.sptr (cmpX t s), sh := upd m.sh m.zp.sptr (cmpX t s) } := by
    simp only [M.view, c1, c2, c3, c4, c5, h20, h2.stk, h2.sl, h2.sh, h2.ram, h2.zp.sptr, h2.zp.saddr, h2.zp.saddrh, h2.zp.arr, h2.zp.arrh, h2.zp.mins]
  refine ⟨_, ⟨m', h1, ev⟩, ?_, h.cp, rfl⟩
  have gp := gs.pop.2.push (x := .num (cmpW s t)) (w := cmpW s t) rfl (by rw [hd] at hl; simpa using hl)
  have ep : m.view.sp + 1 - 1 = m.zp.sptr := by show m.zp.sptr + 1 - 1 = _; bv_omega
  rw [ep, cmpW_eq s t, lo_word, hi_word, ← cmpW_eq s t] at gp
  exact ⟨fun x hx => by cases hx; rfl, g.saddr, gp, g.mem, g.color, g.one, g.loaded, g.vpage, g.chn, g.out, g.arr, g.mins⟩

theorem put_nil (r : W → B) (p : W) : upd r p 0 = putStr r p [] := by
  refine eq_putStr ?_ fun a ha => ?_
  · simp [strAt, upd]
  · refine if_neg ?_
    rintro rfl
    simp at ha

theorem clamp_neg {a x : B} (h : topBit x = true) : clampCount (word a x) = 0 := by
  rw [clampCount, if_pos]
  have := topBit_toNat x
  rw [h, Bool.toNat_true] at this
  rw [BitVec.toInt_eq_toNat_cond, word_toNat]
  have := a.isLt; have := x.isLt
  split <;> omega

theorem clamp_pos {m : M} (h : topBit m.x = false) : clampCount (word m.a m.x) = idxCount m := by
  have := topBit_toNat m.x
  rw [h, Bool.toNat_false] at this
  have ha := m.a.isLt; have := m.x.isLt
  rw [clampCount, idxCount]
  have e : (word m.a m.x).toInt = m.a.toNat + 256 * m.x.toNat := by
    rw [BitVec.toInt_eq_toNat_cond, word_toNat]
    split <;> omega
  rw [e, if_neg (by omega)]
  by_cases hx : m.x = 0#8
  · rw [if_pos hx, hx, if_neg (by simp; omega), lo_word]
  · have : m.x.toNat ≠ 0 := fun h => hx (BitVec.eq_of_toNat_eq h)
    rw [if_neg hx, if_pos (by omega)]

theorem sim_idx {pos n : W} {v : Val} {st : List Val} {cs : List B} (h : At env img P m d r) (hd : d.stk = .num pos :: v :: st)
    (ha : d.axW = some n) (hv : strBytes d.mem v = some cs) (hap : apartStr d.mem v LB = true)
    (hr : ∀ a ∈ block LB 256 ++ strBlock d.mem v, ¬ Reserved env img a) (hf : ∀ a ∈ block LB 256, ¬ Fixed env img P a) :
    Sim env img P idxCode idxCode.EXE_STR_IDX m { d with
      stk := st, ax := some (.num (stdIdx d.mem v pos (clampCount n)).2), mem := (stdIdx d.mem v pos (clampCount n)).1 } r := by
  have g := h.rep
  have hblk : ∀ a ∈ block LB 256, ¬ Reserved env img a := fun a ha => hr a (List.mem_append_left _ ha)
  have hsb : ∀ a ∈ strBlock d.mem v, ¬ Reserved env img a := fun a ha => hr a (List.mem_append_right _ ha)
  have vx : VRep env img P m.ram v (m.stkAt 1) := g.stk.val 1 _ (by rw [hd]; rfl)
  have es : strAt m.ram (m.stkAt 1) = cs := g.str h.pl vx hv hsb
  have hA : Apart m.ram (m.stkAt 1) LB := g.apartOf h.pl vx hv hsb hap hblk hf
  have e0 : m.stkAt 0 = pos := h.stkNum (i := 0) (by rw [hd]; rfl)
  have eax : word m.a m.x = n := h.ax ha
  have hy : m.stkAt 0 = word (m.sl m.y) (m.sh m.y) := stkAt0 h.entry
  rw [e0] at hy
  have hpos : pos.toNat = (m.sl m.y).toNat + 256 * (m.sh m.y).toNat := by rw [hy]; exact word_toNat _ _
  obtain ⟨m', h1, h2, h3⟩ : ∃ m', Halts idxCode idxCode.EXE_STR_IDX m m' ∧ m'.ax = LB ∧ Moved m m' (putStr m.ram LB
      (if pos.toNat = 0 ∨ 255 < pos.toNat then [] else (cs.drop (pos.toNat - 1)).take (clampCount n).toNat)) := by
    by_cases hz : topBit m.x = true ∨ m.sh m.y ≠ 0#8
    · obtain ⟨m', h1, h2, h3⟩ := idx_zero_case m hz
      refine ⟨m', h1, h2, ?_⟩
      rw [put_nil] at h3
      have e : (if pos.toNat = 0 ∨ 255 < pos.toNat then [] else (cs.drop (pos.toNat - 1)).take (clampCount n).toNat) = [] := by
        split
        · rfl
        · next hp =>
          rcases hz with hz | hz
          · rw [← eax, clamp_neg hz]; rfl
          · have : (m.sh m.y).toNat ≠ 0 := fun h => hz (BitVec.eq_of_toNat_eq h)
            omega
      rw [e]
      exact h3
    · simp only [not_or, Bool.not_eq_true, Classical.not_not] at hz
      obtain ⟨m', h1, h2, h3⟩ := slice_correct m h.entry hz.1 hz.2
      refine ⟨m', h1, h2, ?_⟩
      rw [hz.2] at hpos
      have hsl := (m.sl m.y).isLt
      have hpos : pos.toNat = (m.sl m.y).toNat := by simpa using hpos
      rw [← clamp_pos hz.1, eax, idx] at h3
      by_cases hp : pos.toNat = 0
      · rw [if_pos (.inl hp)]
        have hs0 : m.sl m.y = 0#8 := BitVec.eq_of_toNat_eq (by rw [← hpos, hp]; rfl)
        have hl0 : ∀ c, sliceLen (m.ram (m.stkAt 1)).toNat (m.sl m.y - 1).toNat c = 0 := by
          intro c
          have := (m.ram (m.stkAt 1)).isLt
          rw [hs0, show (0#8 - 1 : B).toNat = 255 from rfl, sliceLen]
          omega
        rw [hl0] at h3
        rw [← put_nil]
        have e : upd (copyUp (m.stkAt 1 + BitVec.ofNat 16 (m.sl m.y - 1).toNat) LB (0 + 1) m.ram) LB (BitVec.ofNat 8 0) = upd m.ram LB 0 := by
          funext a
          simp only [copyUp, upd]
          split <;> rfl
        rw [e] at h3
        exact h3
      · rw [if_neg (by omega)]
        have e1 : (m.sl m.y - 1).toNat = pos.toNat - 1 := by
          rw [BitVec.toNat_sub]; simp; omega
        rw [e1] at h3
        have hc := (clampCount n).isLt
        rw [slice_put (by omega) (by omega) (by omega) hA, es] at h3
        exact h3
  have ev := moved_does h1 h3 tidy_ext.2.2.2.2.2.2 h.nr
  refine ⟨_, ev, ?_, h.cp, rfl⟩
  have gs := g.stk
  rw [hd] at gs
  have gs := gs.pop.2.pop.2
  have e2 : m.view.sp + 1 + 1 = m.view.sp + 2 := by bv_omega
  rw [e2] at gs
  have hl : (if pos.toNat = 0 ∨ 255 < pos.toNat then [] else (cs.drop (pos.toNat - 1)).take (clampCount n).toNat).length ≤ 255 := by
    have := (clampCount n).isLt
    split
    · simp
    · rw [List.length_take]; omega
  have gp := putStr_rep g h.pl hl hblk hf
  simp only [stdIdx, hv, Option.getD_some]
  generalize (if pos.toNat = 0 ∨ 255 < pos.toNat then [] else (cs.drop (pos.toNat - 1)).take (clampCount n).toNat) = z at *
  have hcc : ∀ x ∈ st, ∀ w, VRep env img P m.view.ram x w → VRep env img P (putStr m.view.ram LB z) x w := fun x _ w hw => hw.ram (by
    refine putStr_out ?_
    have hn : img.chr + 1 ∉ block LB 256 := fun hm => hblk _ hm (.inr (.inr (.inl rfl)))
    rw [mem_block (by omega)] at hn
    omega)
  exact ⟨fun x hx => by cases hx; exact h2, gp.saddr, gs.mono hcc, gp.mem, gp.color, gp.one, gp.loaded, gp.vpage, gp.chn, gp.out, gp.arr, gp.mins⟩

theorem read_out {d : D} {a : W} {e : Event} (h : e ∈ d.out) : e ∈ (d.read env a).2.out := by
  unfold D.read; split
  · exact List.mem_append_left _ h
  · exact h

/-- The routine of an instruction of `stdExt` does what it says. -/
theorem sim_ext {n : String} {ops : List Codew} {d' : D} {Q q : Code} (h : At env img P m d (ops ++ r)) (hn : extRoutine n = some (Q, q))
    (hs : stdExt env n ops d = some d') (hev : ∀ e ∈ d'.out, ∃ ch b, e = .put ch b) (hdep : d'.stk.length ≤ 40)
    (hfix : ∀ a ∈ extWritten env n d, ¬ Fixed env img P a) (hap : ∀ a ∈ extTouched env n d, ¬ Reserved env img a) :
    Sim env img P Q q m d' r := by
  have hmem : ∀ a, Fixed env img P a → d'.mem a = d.mem a := fun a ha => stdExt_mem hs a fun hm => hfix a hm ha
  have hs0 := hs
  unfold stdExt at hs
  split at hs
  · obtain ⟨a, ha, rfl⟩ := Option.map_eq_some_iff.1 hs
    cases hn; exact sim_unop abs_correct tidy_ext.1 h ha
  · obtain ⟨a, ha, rfl⟩ := Option.map_eq_some_iff.1 hs
    cases hn; exact sim_unop sgn_correct tidy_ext.2.1 h ha
  · obtain ⟨a, ha, rfl⟩ := Option.map_eq_some_iff.1 hs
    cases hn
    have e1 := read_put (env := env) (d := (d.read env (a + 1)).2) (a := a) hev
    have e0 := read_put (env := env) (d := d) (a := a + 1) fun e he => hev e (read_out he)
    simp only [e0] at e1 ⊢
    simp only [e1]
    simp only [extTouched, ha] at hap
    exact sim_dpeek h ha hap
  · obtain ⟨⟨x, d1⟩, hp, rfl⟩ := Option.map_eq_some_iff.1 hs
    cases hn; exact sim_pop h hp
  · obtain ⟨a, ha, hs⟩ := Option.bind_eq_some_iff.1 hs
    split at hs
    · next hd =>
      split at hs
      · cases hs
        cases hn
        simp only [extTouched, hd] at hap
        exact sim_for h ha hd (by rw [hd]; simpa using hdep) hap
      · cases hs
    · cases hs
  · split at hs
    · next hd =>
      split at hs
      · cases hs
        cases hn
        simp only [extTouched, hd] at hap
        exact sim_for_next h hd hap hmem
      · cases hs
    · cases hs
  · split at hs
    · next hd =>
      cases hs
      cases hn
      exact sim_for_exit h hd
    · cases hs
  · obtain ⟨⟨x, y, z, d1⟩, ha, hs⟩ := Option.bind_eq_some_iff.1 hs
    have e := (args3_eq ha).2.2
    have e' : d1.mem = d.mem := by rw [e]
    dsimp only at hs
    split at hs
    · cases hs; cases hn
      simp only [extTouched, ha] at hap
      rw [e'] at hmem ⊢
      exact sim_move h ha hap hmem
    · cases hs
  · obtain ⟨⟨x, y, z, d1⟩, ha, hs⟩ := Option.bind_eq_some_iff.1 hs
    have e := (args3_eq ha).2.2
    have e' : d1.mem = d.mem := by rw [e]
    dsimp only at hs
    split at hs
    · next hc =>
      simp only [Bool.and_eq_true, decide_eq_true_eq] at hc
      cases hs; cases hn
      simp only [extTouched, ha] at hap
      rw [e'] at hmem ⊢
      exact sim_nmove h ha hc.1.1 hap hmem
    · cases hs
  · obtain ⟨⟨x, y, z, d1⟩, ha, hs⟩ := Option.bind_eq_some_iff.1 hs
    have e := (args3_eq ha).2.2
    have e' : d1.mem = d.mem := by rw [e]
    dsimp only at hs
    split at hs
    · cases hs; cases hn
      simp only [extTouched, ha] at hap
      rw [e'] at hmem ⊢
      exact sim_mset h ha hap hmem
    · cases hs
  · obtain ⟨⟨x, d1⟩, hp, hs⟩ := Option.bind_eq_some_iff.1 hs
    obtain ⟨s, hx, hs⟩ := Option.bind_eq_some_iff.1 hs
    obtain ⟨v, hv, hs⟩ := Option.bind_eq_some_iff.1 hs
    obtain ⟨t, ht, rfl⟩ := Option.map_eq_some_iff.1 hs
    obtain ⟨hd, e⟩ := pop_stk hp
    dsimp only at *
    cases hn
    have hv' : d.ax = some v := by rw [← hv, e]
    simp only [extTouched, hd, hv'] at hap
    have := sim_cmp_str h hd hx hv' ht (by rw [hd]; simpa using hdep) hap
    rw [e]
    exact this
  · cases hn
    refine sim_copy_str h hs ?_ ?_
    · intro s v Q h1 h2 h3
      simpa only [extTouched, h1, h2, h3] using hap
    · intro s Q h1 h3
      simpa only [extWritten, h1, h3] using hfix
  · cases hn
    refine sim_cat_str h hs ?_ ?_
    · intro s v Q h1 h2 h3
      simpa only [extTouched, h1, h2, h3] using hap
    · intro s Q h1 h3
      simpa only [extWritten, h1, h3] using hfix
  · cases hs

end

end FB.Rt
