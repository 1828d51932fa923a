import Verif.Rt.RefineSem
/-!
# The interpreter implements the virtual machine

One step of the virtual machine is at most one instruction of the interpreter of the machine, and runs are runs.
-/
namespace FB.Rt
open Ins Opd

variable {env : Env} {img : Image} {P : List Codew}

/-- `dispatch_correct` for views. -/
theorem dispatch_view (m : M) : ∃ m1, Reach dispatchCode dispatchCode.nxtins m dispatchCode.jump m1 ∧
    m1.view = { m.view with cp := m.view.cp + 1 } ∧ Entry m1 ∧ m1.zp.joff = m.view.ram m.view.cp := by
  by_cases hz : m.zp.cptr + 1#8 = 0#8
  · refine ⟨?_, ⟨8, ?_⟩, ?_, ?_, ?_⟩
    rotate_left
    · rw [dispatchCode.nxtins.eq]
      rt_exec [hz, dispatchCode.adj.eq]
      rfl
    · have := word_inc _ m.zp.cptrh hz
      rw [hz] at this
      simp [M.view, this]
    · rfl
    · rfl
  · refine ⟨?_, ⟨6, ?_⟩, ?_, ?_, ?_⟩
    rotate_left
    · rw [dispatchCode.nxtins.eq]
      rt_exec [hz, dispatchCode.adj.eq]
      rfl
    · have := word_inc' _ m.zp.cptrh hz
      simp [M.view, this]
    · rfl
    · rfl

theorem retSlots_nr (rs : List (List Codew)) (k : Code) : .ret k ∉ retSlots env img P rs := by
  intro h
  simp [retSlots] at h

/-- Reading the token. -/
theorem fetch {c : Cfg} {t : Tok} {r : List Codew} {m : M} (hp : Placed env img P) (hr : Rep env img P c m.view)
    (hc : c.code = .tok t :: r) : ∃ m1, Reach dispatchCode dispatchCode.nxtins m dispatchCode.jump m1 ∧
      jumpTarget m1 img.page = img.exe t ∧ At env img P m1 c.d r ∧ m1.stk = m.stk := by
  obtain ⟨m1, h1, h2, h3, h4⟩ := dispatch_view m
  have hs := hr.code
  rw [hc] at hs
  have e0 : m.view.ram m.view.cp = img.num t := by
    have := ram_at (i := 0) (b := img.num t) hr.d.loaded hs rfl
    rw [hr.cp, hc]
    simpa using this
  have er : m1.ram = m.view.ram := by have e := congrArg View.ram h2; exact e
  have es : m1.stk = m.stk := by have e := congrArg View.stk h2; exact e
  refine ⟨m1, h1, ?_, ⟨hp, h3, ?_, suffix_tail hs, ?_, ?_⟩, es⟩
  · have hm : Codew.tok t ∈ P := suffix_mem hs
    rw [jumpTarget, h4, e0, er, hr.d.loaded.low t hm, hr.d.loaded.high t hm, word_lo_hi]
  · rw [h2]
    have g := hr.d
    exact ⟨g.ax, g.saddr, g.stk, g.mem, g.color, g.one, g.loaded, g.vpage, g.chn, g.out, g.arr, g.mins⟩
  · rw [h2, addr_tail hs, ← hc, ← hr.cp]; rfl
  · intro k hk
    rw [es, show m.stk = m.view.stk from rfl, hr.stk] at hk
    exact retSlots_nr _ _ hk

theorem splitOps_eq : ∀ {n : Nat} {r ops r' : List Codew}, splitOps n r = some (ops, r') → r = ops ++ r' := by
  intro n
  induction n with
  | zero => intro r ops r' h; cases h; rfl
  | succ n ih =>
    intro r ops r' h
    cases r with
    | nil => cases h
    | cons o r =>
      simp only [splitOps] at h
      split at h
      · obtain ⟨⟨a, b⟩, h1, h2⟩ := Option.map_eq_some_iff.1 h
        simp only [Prod.mk.injEq] at h2
        obtain ⟨rfl, rfl⟩ := h2
        rw [ih h1]; rfl
      · cases h

theorem lowBit_b2w {m : M} {b : Bool} (h : m.view.ax = b2w b) : lowBit m.a = b ∧ lowBit (m.a ^^^ 1) = !b := by
  have h1 := m.a.isLt; have h2 := m.x.isLt
  have h3 := congrArg BitVec.toNat h
  cases b
  · have : m.a = 0 := BitVec.eq_of_toNat_eq (by simp [M.view, b2w] at h3 ⊢; omega)
    rw [this]; decide
  · have : m.a = 1 := BitVec.eq_of_toNat_eq (by simp [M.view, b2w] at h3 ⊢; omega)
    rw [this]; decide

/-- The routine ends in a state that represents the configuration. -/
def SimC (env : Env) (img : Image) (P : List Codew) (Q q : Code) (m : M) (c : Cfg) : Prop :=
  ∃ v, Does Q q m v ∧ Rep env img P c v

theorem goto_eq {c c' : Cfg} {l : String} (h : goto P c l = .run c') :
    ∃ k, findLabel l P = some k ∧ c' = { c with code := k, d := c.d.killAx } := by
  unfold goto at h
  split at h
  · next k hk => cases h; exact ⟨k, hk, rfl⟩
  · cases h

theorem doRet_eq {c c' : Cfg} (h : doRet c = .run c') : ∃ k rs, c.rets = k :: rs ∧ c' = ⟨k, rs, c.d.killAx⟩ := by
  unfold doRet at h
  split at h
  · split at h
    · next k rs e => cases h; exact ⟨k, rs, e, rfl⟩
    · cases h
  · cases h

/-- Going on at another place, with the accumulator unspecified. -/
theorem simGo {Q q : Code} {m : M} {d : D} {k k' : List Codew} {rs : List (List Codew)} {s : List Slot} {cp ax : W} (h : At env img P m d k)
    (hd : Does Q q m { m.view with ax := ax, cp := cp, stk := s }) (hk : k' <:+ P) (hcp : cp = addr env img P k')
    (hrs : ∀ k ∈ rs, k <:+ P) (hs : s = retSlots env img P rs) : SimC env img P Q q m ⟨k', rs, d.killAx⟩ := by
  refine ⟨_, hd, hk, hcp, hrs, hs, ?_⟩
  have g := h.rep
  exact ⟨nofun, g.saddr, g.stk, g.mem, g.color, g.one, g.loaded, g.vpage, g.chn, g.out, g.arr, g.mins⟩

/-- The control instructions. -/
theorem sim_ctl {t : Tok} {ops r : List Codew} {m : M} {c c' : Cfg} {Q q : Code} (h : At env img P m c.d (ops ++ r))
    (hs : m.stk = retSlots env img P c.rets) (hrs : ∀ k ∈ c.rets, k <:+ P) (hr : routine env img t = some (Q, q))
    (hc : ctl P t ops r c = .run c') : SimC env img P Q q m c' := by
  unfold ctl at hc
  split at hc
  · -- JUMP
    cases hr
    obtain ⟨k, hk, rfl⟩ := goto_eq hc
    obtain ⟨ax, hd⟩ := jump_does m
    exact simGo h hd (findLabel_suffix hk) ((h.word rfl).1.trans (h.pl.labels _ _ hk)) hrs hs
  · -- CJUMP
    cases hr
    split at hc
    · next b hb =>
      obtain ⟨ax, hd⟩ := cjump_does m
      rw [(lowBit_b2w (h.axB hb)).1] at hd
      cases b
      · obtain ⟨k, hk, rfl⟩ := goto_eq hc
        exact simGo h hd (findLabel_suffix hk) ((h.word rfl).1.trans (h.pl.labels _ _ hk)) hrs hs
      · cases hc
        exact simGo h hd (suffix_tail h.suf) (h.word rfl).2 hrs hs
    · cases hc
  · -- CNJUMP
    cases hr
    split at hc
    · next b hb =>
      obtain ⟨ax, hd⟩ := cnjump_does m
      rw [(lowBit_b2w (h.axB hb)).2] at hd
      cases b
      · cases hc
        exact simGo h hd (suffix_tail h.suf) (h.word rfl).2 hrs hs
      · obtain ⟨k, hk, rfl⟩ := goto_eq hc
        exact simGo h hd (findLabel_suffix hk) ((h.word rfl).1.trans (h.pl.labels _ _ hk)) hrs hs
    · cases hc
  · -- CALL
    cases hr
    obtain ⟨k, hk, rfl⟩ := goto_eq hc
    obtain ⟨ax, hd⟩ := call_does m
    refine simGo h hd (findLabel_suffix hk) ((h.word rfl).1.trans (h.pl.labels _ _ hk)) ?_ ?_
    · intro k hk
      rcases List.mem_cons.1 hk with rfl | hk
      · exact suffix_tail h.suf
      · exact hrs k hk
    · rw [(h.word rfl).2, hs]; rfl
  · -- RET
    cases hr
    obtain ⟨k, rs, e, rfl⟩ := doRet_eq hc
    rw [e] at hs hrs
    obtain ⟨ax, hd⟩ := ret_does m _ _ _ hs
    exact simGo h hd (hrs k (by simp)) (word_lo_hi _) (fun k' hk' => hrs k' (by simp [hk'])) rfl
  · -- CRET
    cases hr
    split at hc
    · next b hb =>
      have hl := (lowBit_b2w (h.axB hb)).1
      cases b
      · obtain ⟨k, rs, e, rfl⟩ := doRet_eq hc
        rw [e] at hs hrs
        obtain ⟨ax, hd⟩ := cret_does m _ _ _ fun _ => hs
        rw [hl] at hd
        exact simGo h hd (hrs k (by simp)) (word_lo_hi _) (fun k' hk' => hrs k' (by simp [hk'])) rfl
      · cases hc
        obtain ⟨ax, hd⟩ := cret_does m 0 0 [] (by rw [hl]; nofun)
        rw [hl] at hd
        exact simGo h hd h.suf h.cp hrs hs
    · cases hc
  · -- CNRET
    cases hr
    split at hc
    · next b hb =>
      have hl := (lowBit_b2w (h.axB hb)).2
      cases b
      · cases hc
        obtain ⟨ax, hd⟩ := cnret_does m 0 0 [] (by rw [hl]; nofun)
        rw [hl] at hd
        exact simGo h hd h.suf h.cp hrs hs
      · obtain ⟨k, rs, e, rfl⟩ := doRet_eq hc
        rw [e] at hs hrs
        obtain ⟨ax, hd⟩ := cnret_does m _ _ _ fun _ => hs
        rw [hl] at hd
        exact simGo h hd (hrs k (by simp)) (word_lo_hi _) (fun k' hk' => hrs k' (by simp [hk'])) rfl
    · cases hc
  · cases hc
  · cases hc

/-! ## Steps and runs -/

/-- The condition on a step of the program. -/
def StepSafe (env : Env) (img : Image) (P : List Codew) (c c' : Cfg) : Prop :=
  ∀ t r ops r', c.code = .tok t :: r → splitOps (arity env t) r = some (ops, r') → Safe env img P t ops c.d c'.d

/-- All the steps from `c` are safe. -/
def SafeRun (env : Env) (img : Image) (P : List Codew) (c : Cfg) : Prop :=
  ∀ n c1 c2, runN env P n c = .run c1 → FB.step env P c1 = .run c2 → StepSafe env img P c1 c2

/-- A step of the virtual machine. -/
theorem sim_step {rt : W → Option (Code × Code)} {c c' : Cfg} {m : M} (he : Std env) (hp : Placed env img P) (hrt : Routines env img P rt)
    (hr : Rep env img P c m.view) (hs : FB.step env P c = .run c') (hsafe : StepSafe env img P c c') :
    ∃ m', MSteps rt img.page m m' ∧ Rep env img P c' m'.view := by
  unfold FB.step at hs
  split at hs
  · cases hs
  · -- a label
    next l r hc =>
    split at hs
    · cases hs
      refine ⟨m, .refl m, ?_⟩
      have hk := hr.code
      rw [hc] at hk
      refine ⟨suffix_tail hk, ?_, hr.rets, hr.stk, hr.d⟩
      rw [hr.cp, hc, addr_tail hk]
      simp [bytesOf]
    · cases hs
  · next t r hc =>
    obtain ⟨m1, h1, h2, h3, h4⟩ := fetch hp hr hc
    have hk := hr.code
    rw [hc] at hk
    split at hs
    · cases hs
    · next ops r' ho =>
      have hsf := hsafe t r ops r' hc ho
      obtain ⟨⟨Q, q⟩, hq⟩ := Option.isSome_iff_exists.1 hsf.known
      have hrt' := hrt t (suffix_mem hk) _ hq
      rw [splitOps_eq ho] at h3
      have hstk : m1.stk = retSlots env img P c.rets := h4.trans hr.stk
      have fin : ∀ c', SimC env img P Q q m1 c' → ∃ m', MSteps rt img.page m m' ∧ Rep env img P c' m'.view := by
        rintro c' ⟨v, ⟨m', hm, hv⟩, hrep⟩
        refine ⟨m', .step ⟨m1, Q, q, h1, by rw [h2]; exact hrt', hm⟩ (.refl m'), ?_⟩
        rw [hv]; exact hrep
      split at hs
      · exact fin c' (sim_ctl h3 hstk hr.rets hq hs)
      · next hctl =>
        split at hs
        · next d' hd =>
          cases hs
          obtain ⟨v, hv, hd', hcp, hst⟩ := sim_sem he h3 hq (by simpa using hctl) hd hsf
          refine fin _ ⟨v, hv, ?_, hcp, hr.rets, hst.trans hstk, hd'⟩
          have := h3.suf
          exact (List.suffix_append _ _).trans this
        · cases hs
  · cases hs

theorem runN_succ (n : Nat) (c : Cfg) : runN env P (n + 1) c = match runN env P n c with | .run c' => FB.step env P c' | r => r := by
  induction n generalizing c with
  | zero => simp only [runN]; cases FB.step env P c <;> rfl
  | succ n ih =>
    rw [runN]
    conv => rhs; rw [runN]
    cases hs : FB.step env P c with
    | run c1 => exact ih c1
    | done d => rfl
    | wrong => rfl

/-- Runs of the virtual machine are runs of the machine. -/
theorem sim_run {rt : W → Option (Code × Code)} {c : Cfg} {m : M} (he : Std env) (hp : Placed env img P) (hrt : Routines env img P rt)
    (hr : Rep env img P c m.view) (hsafe : SafeRun env img P c) :
    ∀ n c', runN env P n c = .run c' → ∃ m', MSteps rt img.page m m' ∧ Rep env img P c' m'.view := by
  intro n
  induction n with
  | zero => intro c' h; cases h; exact ⟨m, .refl m, hr⟩
  | succ n ih =>
    intro c' h
    rw [runN_succ] at h
    cases hn : runN env P n c with
    | run c1 =>
      rw [hn] at h
      obtain ⟨m1, s1, r1⟩ := ih c1 hn
      obtain ⟨m', s2, r2⟩ := sim_step he hp hrt r1 h (hsafe n c1 c' hn h)
      exact ⟨m', s1.trans s2, r2⟩
    | done d => rw [hn] at h; cases h
    | wrong => rw [hn] at h; cases h

/-- The end of the program. -/
theorem sim_end {c : Cfg} {d : D} {m : M} (hp : Placed env img P) (hr : Rep env img P c m.view) (hs : FB.step env P c = .done d) :
    MEnds img m ∧ d = c.d := by
  unfold FB.step at hs
  split at hs
  · cases hs
  · split at hs <;> cases hs
  · next t r hc =>
    split at hs
    · cases hs
    · next ops r' ho =>
      split at hs
      · have : t = .END ∧ d = c.d := by
          unfold ctl goto doRet at hs
          repeat' split at hs
          all_goals first | (cases hs; done) | (cases hs; exact ⟨rfl, rfl⟩)
        obtain ⟨rfl, rfl⟩ := this
        obtain ⟨m1, h1, h2, -⟩ := fetch hp hr hc
        exact ⟨⟨m1, h1, h2⟩, rfl⟩
      · split at hs <;> cases hs
  · cases hs

/-- A program that ends. -/
theorem sim_done {rt : W → Option (Code × Code)} {c : Cfg} {m : M} {n : Nat} {d : D} (he : Std env) (hp : Placed env img P) (hrt : Routines env img P rt)
    (hr : Rep env img P c m.view) (hsafe : SafeRun env img P c) (h : runN env P n c = .done d) :
    ∃ m', MSteps rt img.page m m' ∧ MEnds img m' ∧ DRep env img P d m'.view := by
  induction n with
  | zero => cases h
  | succ n ih =>
    rw [runN_succ] at h
    cases hn : runN env P n c with
    | run c1 =>
      rw [hn] at h
      obtain ⟨m1, s1, r1⟩ := sim_run he hp hrt hr hsafe n c1 hn
      obtain ⟨h1, rfl⟩ := sim_end hp r1 h
      exact ⟨m1, s1, h1, r1.d⟩
    | done d' => rw [hn] at h; cases h; exact ih hn
    | wrong => rw [hn] at h; cases h

/-! ## The machine is deterministic -/

theorem reach_jump_unique {m m1 m2 : M} (h1 : Reach dispatchCode dispatchCode.nxtins m dispatchCode.jump m1)
    (h2 : Reach dispatchCode dispatchCode.nxtins m dispatchCode.jump m2) : m1 = m2 := by
  have err : ∀ k (m : M), run dispatchCode (k + 1) dispatchCode.jump m = .err := by
    intro k m; rw [dispatchCode.jump.eq]; rfl
  obtain ⟨a, ha⟩ := h1; obtain ⟨b, hb⟩ := h2
  rcases Nat.lt_trichotomy a b with hlt | rfl | hlt
  · obtain ⟨k, rfl⟩ : ∃ k, b = a + (k + 1) := ⟨b - a - 1, by omega⟩
    rw [run_add, ha] at hb
    simp only [err] at hb; cases hb
  · rw [ha] at hb; cases hb; rfl
  · obtain ⟨k, rfl⟩ : ∃ k, a = b + (k + 1) := ⟨a - b - 1, by omega⟩
    rw [run_add, hb] at ha
    simp only [err] at ha; cases ha

theorem MStep.unique {rt : W → Option (Code × Code)} {page : B} {m m1 m2 : M} (h1 : MStep rt page m m1) (h2 : MStep rt page m m2) :
    m1 = m2 := by
  obtain ⟨a, Q, q, r1, e1, g1⟩ := h1
  obtain ⟨b, Q', q', r2, e2, g2⟩ := h2
  cases reach_jump_unique r1 r2
  rw [e1] at e2
  cases e2
  exact g1.unique g2

/-- Nothing follows the end. -/
theorem MEnds.last {rt : W → Option (Code × Code)} {m m' : M} (hrt : rt (img.exe .END) = none) (h : MEnds img m) : ¬ MStep rt img.page m m' := by
  rintro ⟨m1, Q, q, r1, e1, -⟩
  obtain ⟨m2, r2, e2⟩ := h
  cases reach_jump_unique r1 r2
  rw [e2, hrt] at e1
  cases e1

theorem MSteps.unique {rt : W → Option (Code × Code)} {m m1 m2 : M} (hrt : rt (img.exe .END) = none)
    (h1 : MSteps rt img.page m m1) (e1 : MEnds img m1) (h2 : MSteps rt img.page m m2) (e2 : MEnds img m2) : m1 = m2 := by
  induction h1 with
  | refl m =>
    cases h2 with
    | refl => rfl
    | step s _ => exact absurd s (e1.last hrt)
  | step s _ ih =>
    cases h2 with
    | refl => exact absurd s (e2.last hrt)
    | step s' r' =>
      cases s.unique s'
      exact ih e1 r'

end FB.Rt
