import Verif.Eng.Sim
/-!
# The parser of the native compiler interprets the tables: lines and tables
-/
namespace FB.Eng
open FB.Rt FB.Syn
open FB.Parse (Str Act DCode PCode)

section
variable {ρ : Type} {L : Lay} {E : Mem ρ} {txt : Str} {X : W → M → Option M → Prop} {act : Act → St B ρ → Syn.Out B ρ}

/-! ## Skipping the rest of a line -/

theorem At.get {F : W → Prop} {mem : W → B} {p : W} {a : List B} {b : B} {bs : List B} (h : At F mem p (a ++ b :: bs)) :
    F (p + BitVec.ofNat 16 (a.length + 1)) ∧ mem (p + BitVec.ofNat 16 (a.length + 1)) = b := by
  have := (At.append.mp h).2
  rw [At, show (1 : W) = BitVec.ofNat 16 1 from rfl, ofNat_add16] at this
  exact ⟨this.1, this.2.2.1⟩

theorem sn_loop : ∀ (n : Nat) (m : M), 1 ≤ n → n < 256 → m.x = BitVec.ofNat 8 n →
    ∃ m', Reach L.code (L.at engCode.sn_1) m (L.at engCode.skip_nextline) m' ∧ m'.pv = m.pv ∧ m'.y = m.y + BitVec.ofNat 8 n
  | 0, _, h, _, _ => absurd h (by decide)
  | 1, m, _, _, hx => seg_sn_end _ _ _ _ m hx
  | n + 2, m, _, hn, hx => by
    obtain ⟨m1, r1, e1, y1, x1⟩ := seg_sn_more L.tab (L.addr L.first) (BitVec.ofNat 8 (2 * L.exts.length)) L.err m (by rw [hx]; simp; omega)
    obtain ⟨m2, r2, e2, y2⟩ := sn_loop (n + 1) m1 (by omega) (by omega) (by rw [x1, hx]; apply BitVec.eq_of_toNat_eq; simp [BitVec.toNat_sub]; omega)
    refine ⟨m2, r1.trans r2, e2.trans e1, ?_⟩
    rw [y2, y1, BitVec.add_assoc]
    congr 1
    apply BitVec.eq_of_toNat_eq; simp [BitVec.toNat_add]; omega

/-- From the start of `skip_nextline`, with the index `Y`. -/
theorem skip_tail (G : Good L E txt) {bs : List B} (t : Tail bs) : ∀ (pre : List B) (s : St B ρ) (m : M), Rel E s m.pv → At E.F E.mem m.pv.pp (pre ++ bs) → pre.length + bs.length ≤ 255 →
    m.y.toNat = pre.length → ∃ m', Reach L.code (L.at engCode.skip_nextline) m (L.at engCode.go_ploop) m' ∧ m'.pv = m.pv ∧ m'.y.toNat = pre.length + bs.length ∧ m'.c = false := by
  have read : ∀ {pre : List B} {b : B} {bs : List B} {s : St B ρ} {m : M}, Rel E s m.pv → At E.F E.mem m.pv.pp (pre ++ b :: bs) → pre.length + 1 ≤ 255 → m.y.toNat = pre.length →
      m.pv.ram (idx m.pv.pp (m.y + 1#8)) = b ∧ (m.y + 1#8).toNat = pre.length + 1 := by
    intro pre b bs s m h ha hl hy
    obtain ⟨g1, g2⟩ := At.get ha
    have e : (m.y + 1#8).toNat = pre.length + 1 := by rw [BitVec.toNat_add, hy]; simp; omega
    rw [idx, e, h.fix _ g1]
    exact ⟨g2, rfl⟩
  induction t with
  | ret =>
    intro pre s m h ha hl hy
    simp only [List.length_cons, List.length_nil] at hl ⊢
    obtain ⟨h1, h2⟩ := read h ha (by omega) hy
    obtain ⟨m1, r1, e1, y1, c1⟩ := seg_skip_ret L.tab (L.addr L.first) (BitVec.ofNat 8 (2 * L.exts.length)) L.err m h1
    exact ⟨m1, r1, e1, by rw [y1, h2], c1⟩
  | eret b =>
    intro pre s m h ha hl hy
    simp only [List.length_cons, List.length_nil] at hl ⊢
    obtain ⟨h1, h2⟩ := read h ha (by omega) hy
    obtain ⟨m1, r1, e1, y1, c1⟩ := seg_skip_eret L.tab (L.addr L.first) (BitVec.ofNat 8 (2 * L.exts.length)) L.err m h1
    refine ⟨m1, r1, e1, ?_, c1⟩
    rw [y1, BitVec.toNat_add, h2]; simp; omega
  | @sym b bs hb t ih =>
    intro pre s m h ha hl hy
    simp only [List.length_cons] at hl ⊢
    obtain ⟨h1, h2⟩ := read h ha (by omega) hy
    obtain ⟨m1, r1, e1, y1⟩ := seg_skip_sym L.tab (L.addr L.first) (BitVec.ofNat 8 (2 * L.exts.length)) L.err m (by rw [h1]; exact hb)
    obtain ⟨m2, r2, e2, y2, c2⟩ := ih (pre ++ [b]) s m1 (by rw [e1]; exact h) (by rw [e1]; simpa using ha) (by simp; omega) (by rw [y1, h2]; simp)
    refine ⟨m2, r1.trans r2, e2.trans e1, ?_, c2⟩
    rw [y2]; simp; omega
  | @emit b ds bs h3 h31 hn t ih =>
    intro pre s m h ha hl hy
    simp only [List.length_cons, List.length_append] at hl ⊢
    obtain ⟨h1, h2⟩ := read h ha (by omega) hy
    obtain ⟨m1, r1, e1, y1, x1⟩ := seg_skip_emit L.tab (L.addr L.first) (BitVec.ofNat 8 (2 * L.exts.length)) L.err m h1 h3 h31
    obtain ⟨m2, r2, e2, y2⟩ := sn_loop (L := L) ds.length m1 (by omega) (by omega) (by rw [x1]; apply BitVec.eq_of_toNat_eq; rw [BitVec.toNat_sub]; simp; omega)
    have ey : m2.y.toNat = pre.length + 1 + ds.length := by rw [y2, BitVec.toNat_add, y1, h2]; simp; omega
    obtain ⟨m3, r3, e3, y3, c3⟩ := ih (pre ++ b :: ds) s m2 (by rw [e2, e1]; exact h) (by rw [e2, e1]; simpa using ha) (by simp; omega) (by rw [ey]; simp; omega)
    refine ⟨m3, r1.trans (r2.trans r3), e3.trans (e2.trans e1), ?_, c3⟩
    rw [y3]; simp; omega

/-- A line fails: the state goes back to the start of the line and the parser to the next line. -/
theorem nextline_sim (G : Good L E txt) {bs : List B} (t : Tail bs) (s : St B ρ) (k : Nat × Nat) (m : M) {o c : B} {st : List Slot} (h : Rel E s m.pv) (hs : m.pv.stk = .byte o :: .byte c :: st)
    (hc : c.toNat = k.1) (hk : k.1 ≤ E.e) (ho : o.toNat = k.2) (ha : At E.F E.mem m.pv.pp bs) (hl : bs.length ≤ 255) :
    ∃ m', Reach L.code (L.at engCode.ploop_nextline) m (L.at engCode.ploop_line) m' ∧ Rel E (s.back k) m'.pv ∧ m'.pv.stk = st ∧ m'.pv.pp = m.pv.pp + BitVec.ofNat 16 bs.length := by
  obtain ⟨m1, r1, e1, y1⟩ := seg_nextline L.tab (L.addr L.first) (BitVec.ofNat 8 (2 * L.exts.length)) L.err m hs
  have h1 : Rel E (s.back k) m1.pv := by rw [e1]; exact h.move G rfl rfl hc hk ho rfl rfl rfl rfl rfl rfl
  obtain ⟨m2, r2, e2, y2, c2⟩ := skip_tail G t [] (s.back k) m1 h1 (by rw [e1]; exact ha) (by simpa using hl) (by rw [y1]; rfl)
  obtain ⟨m3, r3, e3⟩ := seg_go L.tab (L.addr L.first) (BitVec.ofNat 8 (2 * L.exts.length)) L.err m2 c2
  refine ⟨m3, r1.trans (r2.trans r3), ?_, by rw [e3, e2, e1], ?_⟩
  · rw [e3, e2]; exact h1.same G rfl rfl rfl rfl rfl rfl rfl rfl
  · rw [e3, e2, e1]
    show idx m.pv.pp m2.y = _
    rw [idx, y2]; simp

/-! ## Blanks -/

theorem drop_cons {l : List Nat} {i : Nat} {c : Nat} (h : l[i]? = some c) : l.drop i = c :: l.drop (i + 1) := by
  have hlt : i < l.length := by
    rcases Nat.lt_or_ge i l.length with h' | h'
    · exact h'
    · rw [List.getElem?_eq_none h'] at h; cases h
  rw [List.drop_eq_getElem_cons hlt]
  rw [List.getElem?_eq_getElem hlt] at h
  rw [Option.some.inj h]

theorem blanks_sim (G : Good L E txt) {k : Code} {st : List Slot} (s : St B ρ) : ∀ (n : Nat) (i : Nat) (m : M), E.e - i = n → i ≤ E.e → Rel E s m.pv → m.y.toNat = i → m.a = 32#8 →
    m.pv.stk = .ret k :: st →
    ∃ m', Reach L.code (L.at engCode.skb_1) m k m' ∧ Rel E { s with pos := i + blanks (fun c => c == 32) (txt.drop i) } m'.pv ∧ m'.pv.stk = st ∧ m'.pv.pp = m.pv.pp := by
  intro n
  induction n with
  | zero =>
    intro i m hn hi h hy ha hs
    have : i = E.e := by omega
    subst this
    obtain ⟨hF, ht⟩ := G.text E.e (Nat.le_refl _)
    have er : m.pv.ram (idx (word m.pv.z.inb m.pv.z.inbh) m.y) = 155#8 := by rw [idx, h.inb, hy, h.fix _ hF]; exact G.eol
    obtain ⟨m1, r1, e1⟩ := seg_ws_end L.tab (L.addr L.first) (BitVec.ofNat 8 (2 * L.exts.length)) L.err m ha (by rw [er]; decide) hs
    have hb : blanks (fun c => c == 32) (txt.drop E.e) = 0 := by
      rw [drop_cons ht, G.eol]; rfl
    rw [hb, Nat.add_zero]
    refine ⟨m1, r1, ?_, by rw [e1], by rw [e1]⟩
    rw [e1]; exact h.move G rfl rfl hy (Nat.le_refl _) h.op rfl rfl rfl rfl rfl rfl
  | succ n ih =>
    intro i m hn hi h hy ha hs
    obtain ⟨hF, ht⟩ := G.text i hi
    have er : m.pv.ram (idx (word m.pv.z.inb m.pv.z.inbh) m.y) = E.mem (E.ib + BitVec.ofNat 16 i) := by rw [idx, h.inb, hy]; exact h.fix _ hF
    have hyl := m.y.isLt
    have := G.elt
    by_cases hb : E.mem (E.ib + BitVec.ofNat 16 i) = 32#8
    · have ey : (m.y + 1#8).toNat = i + 1 := by rw [BitVec.toNat_add, hy]; simp; omega
      obtain ⟨m1, r1, e1, y1, a1⟩ := seg_ws_more L.tab (L.addr L.first) (BitVec.ofNat 8 (2 * L.exts.length)) L.err m ha (by rw [er]; exact hb)
        (by intro x; rw [x] at ey; exact absurd ey (by simp))
      obtain ⟨m2, r2, h2, s2, p2⟩ := ih (i + 1) m1 (by omega) (by omega) (by rw [e1]; exact h) (by rw [y1]; exact ey) a1 (by rw [e1]; exact hs)
      refine ⟨m2, r1.trans r2, ?_, s2, by rw [p2, e1]⟩
      have eb : i + blanks (fun c => c == 32) (txt.drop i) = i + 1 + blanks (fun c => c == 32) (txt.drop (i + 1)) := by
        rw [drop_cons ht, hb, blanks]; simp; omega
      rw [eb]; exact h2
    · obtain ⟨m1, r1, e1⟩ := seg_ws_end L.tab (L.addr L.first) (BitVec.ofNat 8 (2 * L.exts.length)) L.err m ha (by rw [er]; exact hb) hs
      have eb : i + blanks (fun c => c == 32) (txt.drop i) = i := by
        rw [drop_cons ht, blanks, if_neg, Nat.add_zero]
        intro x
        apply hb
        apply BitVec.eq_of_toNat_eq
        simpa using x
      rw [eb]
      refine ⟨m1, r1, ?_, by rw [e1], by rw [e1]⟩
      rw [e1]; exact h.move G rfl rfl hy hi h.op rfl rfl rfl rfl rfl rfl

/-- `parser_skipws`. -/
theorem skipws_sim (G : Good L E txt) {k : Code} {st : List Slot} (s : St B ρ) (m : M) (h : Rel E s m.pv) (hs : m.pv.stk = .ret k :: st) :
    ∃ m', Reach L.code (L.at engCode.parser_skipws) m k m' ∧ Rel E ((natConf L.v txt act).skip s) m'.pv ∧ m'.pv.stk = st ∧ m'.pv.pp = m.pv.pp := by
  obtain ⟨m1, r1, e1, y1, a1⟩ := seg_ws L.tab (L.addr L.first) (BitVec.ofNat 8 (2 * L.exts.length)) L.err m
  obtain ⟨m2, r2, h2, s2, p2⟩ := blanks_sim G s _ s.pos m1 rfl h.ple (by rw [e1]; exact h) (by rw [y1, h.pos]) a1 (by rw [e1]; exact hs)
  exact ⟨m2, r1.trans r2, h2, s2, by rw [p2, e1]⟩

/-! ## Lines -/

/-- The result of a line on the machine, from place `k`: the line ends at `p`. -/
def LineSim (L : Lay) (E : Mem ρ) (X : W → M → Option M → Prop) (k : Code) (m : M) (st : List Slot) (p : W) : Syn.Out B ρ → Prop
  | .ok s => ∃ m', PRun L X k m (L.at engCode.pexit_ok) m' ∧ Rel E s m'.pv ∧ m'.pv.stk = st
  | .fail s => ∃ m' bs, PRun L X k m (L.at engCode.ploop_nextline) m' ∧ Rel E s m'.pv ∧ m'.pv.stk = st ∧ Tail bs ∧ At E.F E.mem m'.pv.pp bs ∧ bs.length ≤ 255 ∧
      m'.pv.pp + BitVec.ofNat 16 bs.length = p
  | .stop => Stops L X k m

theorem LineSim.pre {k k1 : Code} {m m1 : M} {st : List Slot} {p : W} {r : Syn.Out B ρ} (h : PRun L X k m k1 m1) (h' : LineSim L E X k1 m1 st p r) : LineSim L E X k m st p r := by
  cases r with
  | ok s => obtain ⟨m', r, x⟩ := h'; exact ⟨m', h.trans r, x⟩
  | fail s => obtain ⟨m', bs, r, x⟩ := h'; exact ⟨m', bs, h.trans r, x⟩
  | stop => exact Stops.pre h h'

/-- The result of a table on the machine, from `parser_sub`. -/
def TabSim (L : Lay) (E : Mem ρ) (X : W → M → Option M → Prop) (m : M) : Syn.Out B ρ → Prop
  | .ok s => ∃ m' o c, PRun L X (L.at engCode.parser_sub) m (L.at engCode.pexit_ok) m' ∧ Rel E s m'.pv ∧ m'.pv.stk = .byte o :: .byte c :: .byte m.zp.pptr :: .byte m.a :: m.pv.stk
  | .fail s => ∃ m' o c, PRun L X (L.at engCode.parser_sub) m (L.at engCode.pexit_err) m' ∧ Rel E s m'.pv ∧ m'.pv.stk = .byte o :: .byte c :: .byte m.zp.pptr :: .byte m.a :: m.pv.stk
  | .stop => Stops L X (L.at engCode.parser_sub) m

/-- There is a result, and it satisfies `p`. -/
def OSim {α : Type} (p : α → Prop) : Option α → Prop
  | some r => p r
  | none => False

/-- The interpretation `tab` of the tables is followed by the machine, with stacks that grow to at most `n` more bytes; `tab` has a result unless they grow too much. -/
def Follows (L : Lay) (E : Mem ρ) (X : W → M → Option M → Prop) (n : Nat) (tab : Nat → St B ρ → Option (Syn.Out B ρ)) : Prop :=
  ∀ t s r m, t ∈ L.sl.map SM.name → tab t s = r → Rel E s m.pv → word m.x m.y = L.addr t - 1 → stkSize m.stk + 2 < 256 → (r = none → 239 < stkSize m.stk + n) →
    OSim (TabSim L E X m) r ∨ Deep L X (stkSize m.stk + n) (L.at engCode.parser_sub) m

theorem word_lohi (w : W) : word (lo w) (hi w) = w := by
  apply BitVec.eq_of_toNat_eq
  have := w.isLt
  simp only [word_toNat, lo, hi, BitVec.toNat_setWidth, BitVec.toNat_ushiftRight, Nat.shiftRight_eq_div_pow]
  omega

theorem nx_toNat (G : Good L E txt) : (BitVec.ofNat 8 (2 * L.exts.length)).toNat = 2 * L.exts.length := by
  have h := G.count
  have : 0 < (L.sl.map SM.name).length := List.length_pos_of_mem G.start
  rw [List.length_map] at this
  simp; omega

theorem line_emit (C : Conf B ρ) (tab : Nat → St B ρ → Option (Syn.Out B ρ)) (b : Bool) (d : List DCode) (cs : List PCode) (s : St B ρ) :
    line C tab b (.emit d :: cs) s = match C.put (d.flatMap C.enc) s with | .ok s => line C tab false cs s | r => some r := by
  cases b <;> rw [line] <;> cases C.put (d.flatMap C.enc) s <;> rfl

theorem line_ext (C : Conf B ρ) (tab : Nat → St B ρ → Option (Syn.Out B ρ)) (b : Bool) (a : Act) (cs : List PCode) (s : St B ρ) :
    line C tab b (.ext a :: cs) s = match C.act a s with | .ok s => line C tab false cs s | r => some r := by
  cases b <;> rw [line] <;> cases C.act a s <;> rfl

theorem line_call (C : Conf B ρ) (tab : Nat → St B ρ → Option (Syn.Out B ρ)) (b : Bool) (t : Nat) (cs : List PCode) (s : St B ρ) :
    line C tab b (.call t :: cs) s = match tab t s with | some (.ok s) => line C tab false cs s | r => r := by
  cases b <;> rw [line] <;> cases tab t s with
  | none => rfl
  | some q => cases q <;> rfl

theorem line_sim (G : Good L E txt) (A : Acts L E X act) {n : Nat} {tab : Nat → St B ρ → Option (Syn.Out B ρ)} (hT : Follows L E X n tab) :
    ∀ (cs : List PCode) (b : Bool) (s : St B ρ) (r : Option (Syn.Out B ρ)) (m : M), lineOk L.v L.exts L.sl cs = true → line (natConf L.v txt act) tab b cs s = r → Rel E s m.pv → (r = none → 239 < stkSize m.pv.stk + n) →
      stkSize m.pv.stk + 2 < 256 → At E.F E.mem m.pv.pp (encLine L.v L.exts L.sl cs) → (encLine L.v L.exts L.sl cs).length ≤ 256 →
      OSim (LineSim L E X (L.loop b) m m.pv.stk (m.pv.pp + BitVec.ofNat 16 (encLine L.v L.exts L.sl cs).length)) r ∨ Deep L X (stkSize m.pv.stk + n) (L.loop b) m := by
  intro cs
  induction cs with
  | nil => intro b s r m hok; exact absurd hok nofun
  | cons c cs ih =>
    intro b s r m hok hr h hnn hst ha hlen
    have hcons : encLine L.v L.exts L.sl (c :: cs) = encCode L.v L.exts L.sl c ++ encLine L.v L.exts L.sl cs := by rw [encLine, List.flatMap_cons]; rfl
    rw [hcons] at ha hlen ⊢
    rw [List.length_append] at hlen ⊢
    have atail := (At.append.mp ha).2
    -- going on with the next code
    have go : ∀ (b' : Bool) (s' : St B ρ) (m' : M), PRun L X (L.loop b) m (L.loop b') m' → lineOk L.v L.exts L.sl cs = true → line (natConf L.v txt act) tab b' cs s' = r →
        Rel E s' m'.pv → m'.pv.stk = m.pv.stk → m'.pv.pp = m.pv.pp + BitVec.ofNat 16 (encCode L.v L.exts L.sl c).length →
        OSim (LineSim L E X (L.loop b) m m.pv.stk (m.pv.pp + BitVec.ofNat 16 ((encCode L.v L.exts L.sl c).length + (encLine L.v L.exts L.sl cs).length))) r ∨ Deep L X (stkSize m.pv.stk + n) (L.loop b) m := by
      intro b' s' m' hrun hok' hr' h' hs' hp'
      have := ih b' s' r m' hok' hr' h' (by rw [hs']; exact hnn) (by rw [hs']; exact hst) (by rw [hp']; exact atail) (by omega)
      rw [hs', hp', ofNat_add16] at this
      rcases this with this | this
      · cases r with
        | none => exact this.elim
        | some r => exact .inl (LineSim.pre hrun this)
      · exact .inr (this.pre hrun)
    -- the end of the line
    have fin : ∀ p ds, PutSim L E (L.loop b) m (L.at engCode.pexit_ok) m.pv.stk p ((natConf L.v txt act).put ds s) → some ((natConf L.v txt act).put ds s) = r →
        OSim (LineSim L E X (L.loop b) m m.pv.stk (m.pv.pp + BitVec.ofNat 16 ((encCode L.v L.exts L.sl c).length + (encLine L.v L.exts L.sl cs).length))) r := by
      intro p ds hp hr'
      rw [← hr']
      revert hp
      cases (natConf L.v txt act).put ds s with
      | ok s' => rintro ⟨m', rr, x1, x2, -⟩; exact ⟨m', .of rr, x1, x2⟩
      | fail s' => intro hp; exact hp.elim
      | stop => rintro ⟨m', rr⟩; exact .inl ⟨m', .of rr⟩
    by_cases hend : cs = [] ∧ (c = .ret ∨ ∃ d, c = .emitRet d)
    · obtain ⟨rfl, hend⟩ := hend
      have hnil : encLine L.v L.exts L.sl [] = [] := rfl
      rw [hnil, List.append_nil] at ha
      rcases hend with rfl | ⟨d, rfl⟩
      · obtain ⟨p, hp⟩ := eret_sim (act := act) G [] b s m h ha
        exact .inl (fin p [] hp (by cases b <;> exact hr))
      · obtain ⟨p, hp⟩ := eret_sim (act := act) G _ b s m h ha
        exact .inl (fin p _ hp (by cases b <;> exact hr))
    · have hok' : bodyOk L.v L.exts L.sl c = true ∧ lineOk L.v L.exts L.sl cs = true := by
        rw [← Bool.and_eq_true]
        cases cs with
        | nil =>
          cases c with
          | ret => exact absurd ⟨rfl, .inl rfl⟩ hend
          | emitRet d => exact absurd ⟨rfl, .inr ⟨d, rfl⟩⟩ hend
          | _ => exact hok
        | cons c' cs' => cases c <;> exact hok
      obtain ⟨hb, hok'⟩ := hok'
      have tl := Tail.encLine G.count cs hok'
      cases c with
      | ret => exact absurd hb nofun
      | emitRet d => exact absurd hb nofun
      | lit str =>
        have hch : Chars str := by
          intro x hx
          have := List.all_eq_true.mp hb x hx
          simpa using this
        have elen : (encCode L.v L.exts L.sl (.lit str)).length = str.length := by simp [encCode]
        cases b with
        | true =>
          obtain ⟨m1, r1, h1, s1, p1, -⟩ := skip_sim G _ str s m hch h ha
          exact go true s m1 (.of r1) hok' hr h1 s1 (by rw [p1, elen])
        | false =>
          have key := lit_sim G _ str s m hch h ha
          rw [line] at hr
          have hlit : (natConf L.v txt act).lit str s = litMatch txt str s := rfl
          rw [hlit] at hr
          revert hr key
          cases litMatch txt str s with
          | yes s' =>
            rintro hr ⟨m1, r1, h1, s1, p1, -⟩
            exact go false s' m1 (.of r1) hok' hr h1 s1 (by rw [p1, elen])
          | dot s' =>
            rintro hr ⟨m1, str', c1, r1, h1, s1, p1, a1⟩
            obtain ⟨m2, r2, h2, s2, p2, -⟩ := skip_sim G _ str' s' m1 c1 h1 a1
            exact go true s' m2 (.of (r1.trans r2)) hok' hr h2 (s2.trans s1) (by rw [p2, p1, elen])
          | no s' =>
            rintro hr ⟨m1, str', c1, r1, h1, s1, p1, l1, a1⟩
            subst hr
            refine .inl ⟨m1, chs str' ++ encLine L.v L.exts L.sl cs, .of r1, h1, s1, ?_, a1, ?_, ?_⟩
            · refine tl.lit str' (List.all_eq_true.mpr fun x hx => ?_)
              have := c1 x hx
              simpa using this
            · rw [List.length_append, List.length_map]; rw [elen] at hlen; omega
            · rw [List.length_append, List.length_map, ← ofNat_add16, p1, ofNat_add16, elen]
      | emit d =>
        have hne : d.flatMap (encD L.v) ≠ [] := by simpa [bodyOk] using hb
        have key := emit_sim (act := act) G _ _ b s m hne h ha
        have hr : (match (natConf L.v txt act).put (d.flatMap (encD L.v)) s with | .ok s => line (natConf L.v txt act) tab false cs s | r => some r) = r := (line_emit _ _ _ _ _ _).symm.trans hr
        revert key hr
        cases (natConf L.v txt act).put (d.flatMap (encD L.v)) s with
        | stop =>
          rintro ⟨m1, r1⟩ hr
          subst hr
          exact .inl (.inl ⟨m1, .of r1⟩)
        | fail s' => intro key; exact key.elim
        | ok s' =>
          rintro ⟨m1, r1, h1, s1, p1⟩ hr
          exact go false s' m1 (.of r1) hok' hr h1 s1 p1
      | ext a =>
        have hm : a ∈ L.exts := by simpa [bodyOk] using hb
        have hi := List.idxOf_lt_length_of_mem hm
        have hcount := G.count
        have hi' : extNum L.exts a < 128 := by rw [extNum]; omega
        obtain ⟨m1, r1, h1, s1, p1, a1, n1⟩ := fetch_call G b h ha (by simp; omega)
        obtain ⟨m2, r2, e2, a2, x2, c2⟩ := seg_call_ml L.tab (L.addr L.first) (BitVec.ofNat 8 (2 * L.exts.length)) L.err m1 n1 hi' a1 (by rw [nx_toNat G, extNum]; omega)
        have h2 : Rel E s m2.pv := by rw [e2]; exact h1
        have s2 : m2.pv.stk = m.pv.stk := by rw [e2, s1]
        have p2 : m2.pv.pp = m.pv.pp + 1 := by rw [e2, p1]
        obtain ⟨f1, f2, g1, g2⟩ := G.extAddr a hm
        have hw : word m2.x m2.a + 1 = L.act a := by
          rw [x2, a2, h1.fix _ f1, h1.fix _ f2, g1, g2, word_lohi]
          exact BitVec.sub_add_cancel _ _
        have r12 : PRun L X (L.loop b) m (L.at engCode.pcall_ml) m2 := .of (r1.trans r2)
        have hA := A a hm s m2 h2 c2
        have hr : (match act a s with | .ok s => line (natConf L.v txt act) tab false cs s | r => some r) = r := (line_ext _ _ _ _ _ _).symm.trans hr
        revert hA hr
        cases act a s with
        | stop =>
          intro hA hr
          subst hr
          exact .inl (.inr ⟨m2, r12, by rw [hw]; exact hA⟩)
        | ok s' =>
          rintro ⟨m3, x3, c3, h3, p3, s3⟩ hr
          obtain ⟨m4, r4, e4⟩ := seg_back L.tab (L.addr L.first) (BitVec.ofNat 8 (2 * L.exts.length)) L.err m3
          rw [c3] at r4
          exact go false s' m4 (r12.trans (.call (by rw [hw]; exact x3) (.of r4))) hok' hr (by rw [e4]; exact h3) (by rw [e4]; exact s3.trans s2) (by rw [e4, p3, p2]; rfl)
        | fail s' =>
          rintro ⟨m3, x3, c3, h3, p3, s3⟩ hr
          subst hr
          obtain ⟨m4, r4, e4⟩ := seg_back L.tab (L.addr L.first) (BitVec.ofNat 8 (2 * L.exts.length)) L.err m3
          rw [c3] at r4
          have el : (encCode L.v L.exts L.sl (.ext a)).length = 1 := rfl
          refine .inl ⟨m4, encLine L.v L.exts L.sl cs, r12.trans (.call (by rw [hw]; exact x3) (.of r4)), by rw [e4]; exact h3, by rw [e4]; exact s3.trans s2, tl, ?_, by omega, ?_⟩
          · rw [e4, p3, p2]; exact atail
          · rw [e4, p3, p2, show (1 : W) = BitVec.ofNat 16 1 from rfl, ofNat_add16]; rfl
      | call t =>
        have hm : t ∈ L.sl.map SM.name := by simpa [bodyOk] using hb
        have hi := List.idxOf_lt_length_of_mem hm
        rw [List.length_map] at hi
        have hcount := G.count
        have hi' : tabNum L.exts L.sl t < 128 := by rw [tabNum]; omega
        obtain ⟨m1, r1, h1, s1, p1, a1, n1⟩ := fetch_call G b h ha (by simp; omega)
        obtain ⟨m2, r2, e2, y2, x2, a2, z2⟩ := seg_call_table L.tab (L.addr L.first) (BitVec.ofNat 8 (2 * L.exts.length)) L.err m1 n1 hi' a1 (by rw [nx_toNat G, tabNum]; omega)
        have h2 : Rel E s m2.pv := by rw [e2]; exact h1
        have s2 : m2.pv.stk = m.pv.stk := by rw [e2, s1]
        have p2 : word m2.zp.pptr m2.a = m.pv.pp + 1 := by rw [z2, a2]; exact p1
        obtain ⟨T, hTm, rfl⟩ := List.mem_map.mp hm
        obtain ⟨f1, f2, g1, g2⟩ := G.tabAddr T hTm
        have hw : word m2.x m2.y = L.addr T.name - 1 := by
          rw [x2, y2, h1.fix _ f1, h1.fix _ f2, g1, g2, word_lohi]
        have h0 : m2.a ≠ 0#8 := by
          intro e0
          have := ha.2.1
          rw [← p2, e0] at this
          have := m2.zp.pptr.isLt
          simp at this
          simp at *
          omega
        have r12 : PRun L X (L.loop b) m (L.at engCode.parser_sub) m2 := .of (r1.trans r2)
        have el : (encCode L.v L.exts L.sl (.call T.name)).length = 1 := rfl
        have hr : (match tab T.name s with | some (.ok s) => line (natConf L.v txt act) tab false cs s | r => r) = r := (line_call _ _ _ _ _ _).symm.trans hr
        have key := hT T.name s
        revert key hr
        cases tab T.name s with
        | none =>
          intro hr key
          have ss : stkSize m2.stk = stkSize m.pv.stk := congrArg stkSize s2
          rcases key none m2 hm rfl h2 hw (by rw [ss]; exact hst) (by rw [ss]; intro _; exact hnn hr.symm) with key | key
          · exact key.elim
          · right
            rw [ss] at key
            exact key.pre r12
        | some q =>
          intro hr key
          have ss : stkSize m2.stk = stkSize m.pv.stk := congrArg stkSize s2
          rcases key (some q) m2 hm rfl h2 hw (by rw [ss]; exact hst) nofun with key | key
          · cases q with
            | stop =>
              subst hr
              exact .inl (Stops.pre r12 key)
            | ok s' =>
              obtain ⟨m3, o, c, r3, h3, s3⟩ := key
              obtain ⟨m4, r4, e4⟩ := seg_ok L.tab (L.addr L.first) (BitVec.ofNat 8 (2 * L.exts.length)) L.err m3 s3 h0
              refine go false s' m4 (r12.trans (r3.trans (.of r4))) hok' hr ?_ (by rw [e4]; exact s2) (by rw [e4]; exact p2)
              rw [e4]; exact h3.same G rfl rfl rfl rfl rfl rfl rfl rfl
            | fail s' =>
              subst hr
              obtain ⟨m3, o, c, r3, h3, s3⟩ := key
              obtain ⟨m4, r4, e4⟩ := seg_err L.tab (L.addr L.first) (BitVec.ofNat 8 (2 * L.exts.length)) L.err m3 s3 h0
              have p4 : m4.pv.pp = m.pv.pp + 1 := by rw [e4]; exact p2
              refine .inl ⟨m4, encLine L.v L.exts L.sl cs, r12.trans (r3.trans (.of r4)), ?_, by rw [e4]; exact s2, tl, ?_, by omega, ?_⟩
              · rw [e4]; exact h3.same G rfl rfl rfl rfl rfl rfl rfl rfl
              · rw [p4]; exact atail
              · rw [p4, show (1 : W) = BitVec.ofNat 16 1 from rfl, ofNat_add16]; rfl
          · right
            rw [ss] at key
            exact key.pre r12

/-! ## Tables -/

/-- A line that cannot fail. -/
theorem line_noFail (C : Conf B ρ) (tab : Nat → St B ρ → Option (Syn.Out B ρ)) : ∀ (l : List PCode) (b : Bool) (s : St B ρ), l.all noFail = true → ∀ s', line C tab b l s ≠ some (.fail s') := by
  have hput : ∀ (ds : List B) (s s' : St B ρ), C.put ds s ≠ .fail s' := by
    intro ds
    induction ds with
    | nil => intro s s' e; cases e
    | cons d ds ih =>
      intro s s'
      rw [Conf.put]
      split
      · intro e; cases e
      · exact ih _ _
  intro l
  induction l with
  | nil => intro b s _ s' e; cases b <;> cases e
  | cons c cs ih =>
    intro b s hl s'
    simp only [List.all_cons, Bool.and_eq_true] at hl
    cases c with
    | lit _ => exact absurd hl.1 nofun
    | ext _ => exact absurd hl.1 nofun
    | call _ => exact absurd hl.1 nofun
    | ret => intro e; cases b <;> cases e
    | emitRet d =>
      intro e
      have : some (C.put (d.flatMap C.enc) s) = some (Syn.Out.fail s') := by cases b <;> exact e
      injection this with this
      exact hput _ _ _ this
    | emit d =>
      intro e
      have : (match C.put (d.flatMap C.enc) s with | .ok s => line C tab false cs s | r => some r) = some (.fail s') := (line_emit _ _ _ _ _ _).symm.trans e
      revert this
      cases hq : C.put (d.flatMap C.enc) s with
      | ok s1 => exact ih false s1 hl.2 s'
      | fail s1 => exact absurd hq (hput _ _ _)
      | stop => intro x; cases x

/-- The result of the lines of a table. -/
def LinesSim (L : Lay) (E : Mem ρ) (X : W → M → Option M → Prop) (m : M) (st : List Slot) : Syn.Out B ρ → Prop
  | .ok s => ∃ m' o c, PRun L X (L.at engCode.ploop_line) m (L.at engCode.pexit_ok) m' ∧ Rel E s m'.pv ∧ m'.pv.stk = .byte o :: .byte c :: st
  | .fail s => ∃ m' o c, PRun L X (L.at engCode.ploop_line) m (L.at engCode.pexit_err) m' ∧ Rel E s m'.pv ∧ m'.pv.stk = .byte o :: .byte c :: st
  | .stop => Stops L X (L.at engCode.ploop_line) m

theorem LinesSim.pre {m m1 : M} {st : List Slot} {r : Syn.Out B ρ} (h : PRun L X (L.at engCode.ploop_line) m (L.at engCode.ploop_line) m1) (h' : LinesSim L E X m1 st r) : LinesSim L E X m st r := by
  cases r with
  | ok s => obtain ⟨m', o, c, r, x⟩ := h'; exact ⟨m', o, c, h.trans r, x⟩
  | fail s => obtain ⟨m', o, c, r, x⟩ := h'; exact ⟨m', o, c, h.trans r, x⟩
  | stop => exact Stops.pre h h'

theorem lines_sim (G : Good L E txt) (A : Acts L E X act) {n : Nat} {tab : Nat → St B ρ → Option (Syn.Out B ρ)} (hT : Follows L E X n tab) (complete : Bool) :
    ∀ (ls : List (List PCode)) (s : St B ρ) (r : Option (Syn.Out B ρ)) (m : M),
      (ls.all fun l => lineOk L.v L.exts L.sl l && decide ((encLine L.v L.exts L.sl l).length ≤ 256)) = true →
      (!complete || match ls.getLast? with | none => false | some l => l.all noFail) = true →
      lines (natConf L.v txt act) tab s.mark ls s = r → Rel E s m.pv → (r = none → 239 < stkSize m.pv.stk + 2 + n) → stkSize m.pv.stk + 4 < 256 →
      At E.F E.mem m.pv.pp (ls.flatMap (encLine L.v L.exts L.sl) ++ if complete then [] else [0#8]) →
      OSim (LinesSim L E X m m.pv.stk) r ∨ Deep L X (stkSize m.pv.stk + 2 + n) (L.at engCode.ploop_line) m := by
  intro ls
  induction ls with
  | nil =>
    intro s r m _ hc hr h _ hst ha
    have : complete = false := by simpa using hc
    subst this
    rw [lines] at hr
    subst hr
    obtain ⟨m1, r1, e1⟩ := seg_line L.tab (L.addr L.first) (BitVec.ofNat 8 (2 * L.exts.length)) L.err m
    have h1 : Rel E s m1.pv := by rw [e1]; exact h.same G rfl rfl rfl rfl rfl rfl rfl rfl
    obtain ⟨m2, r2, h2, s2, -, a2, c2⟩ := fetch_code G false h1 (by rw [e1]; exact ha) (by decide)
    obtain ⟨m3, r3, e3⟩ := seg_exit L.tab (L.addr L.first) (BitVec.ofNat 8 (2 * L.exts.length)) L.err m2 c2 a2
    exact .inl ⟨m3, _, _, .of (r1.trans (r2.trans r3)), by rw [e3]; exact h2, by rw [e3, s2, e1]⟩
  | cons l ls ih =>
    intro s r m hok hc hr h hnn hst ha
    simp only [List.all_cons, Bool.and_eq_true, decide_eq_true_eq] at hok
    obtain ⟨⟨hl, hlen⟩, hls⟩ := hok
    rw [List.flatMap_cons, List.append_assoc] at ha
    obtain ⟨ha1, ha2⟩ := At.append.mp ha
    obtain ⟨m1, r1, e1⟩ := seg_line L.tab (L.addr L.first) (BitVec.ofNat 8 (2 * L.exts.length)) L.err m
    have h1 : Rel E s m1.pv := by rw [e1]; exact h.same G rfl rfl rfl rfl rfl rfl rfl rfl
    have s1 : m1.pv.stk = .byte m.pv.op :: .byte m.pv.ci :: m.pv.stk := by rw [e1]
    have p1 : m1.pv.pp = m.pv.pp := by rw [e1]
    have z1 : stkSize m1.pv.stk = stkSize m.pv.stk + 2 := by rw [s1]; rfl
    have key := line_sim G A hT l false s
    rw [lines] at hr
    revert hr key
    cases hq : line (natConf L.v txt act) tab false l s with
    | none =>
      intro hr key
      rcases key none m1 hl rfl h1 (by rw [z1]; intro _; exact hnn hr.symm) (by rw [z1]; omega) (by rw [p1]; exact ha1) hlen with key | key
      · exact key.elim
      · right
        rw [z1] at key
        exact key.pre (.of r1)
    | some q =>
      intro hr key
      rcases key (some q) m1 hl rfl h1 nofun (by rw [z1]; omega) (by rw [p1]; exact ha1) hlen with key | key
      · cases q with
        | stop =>
          subst hr
          exact .inl (Stops.pre (.of r1) key)
        | ok s' =>
          subst hr
          obtain ⟨m2, r2, h2, s2⟩ := key
          exact .inl ⟨m2, _, _, (PRun.of r1).trans r2, h2, s2.trans s1⟩
        | fail s' =>
          obtain ⟨m2, bs, r2, h2, s2, t2, a2, l2, p2⟩ := key
          obtain ⟨m3, r3, h3, s3, p3⟩ := nextline_sim G t2 s' s.mark m2 h2 (s2.trans s1) h.pos h.ple h.op a2 l2
          have hr13 : PRun L X (L.at engCode.ploop_line) m (L.at engCode.ploop_line) m3 := (PRun.of r1).trans (r2.trans (.of r3))
          have hc' : (!complete || match ls.getLast? with | none => false | some l => l.all noFail) = true := by
            cases ls with
            | cons l' ls' => rw [List.getLast?_cons_cons] at hc; exact hc
            | nil =>
              cases complete with
              | false => rfl
              | true =>
                have : l.all noFail = true := by simpa using hc
                exact absurd hq (line_noFail _ _ l false s this s')
          have hr' : lines (natConf L.v txt act) tab (s'.back s.mark).mark ls (s'.back s.mark) = r := hr
          have := ih (s'.back s.mark) r m3 hls hc' hr' h3 (by rw [s3]; exact hnn) (by rw [s3]; exact hst) (by rw [p3, p2, p1]; exact ha2)
          rw [s3] at this
          rcases this with this | this
          · cases r with
            | none => exact this.elim
            | some r => exact .inl (LinesSim.pre hr13 this)
          · exact .inr (this.pre hr13)
      · right
        rw [z1] at key
        exact key.pre (.of r1)

theorem get_of_mem {sl : SMs} {t : Nat} (h : t ∈ sl.map SM.name) : ∃ T ∈ sl, Syn.get sl t = some T ∧ T.name = t := by
  obtain ⟨T0, hm, rfl⟩ := List.mem_map.mp h
  cases hg : Syn.get sl T0.name with
  | none =>
    rw [Syn.get, List.find?_eq_none] at hg
    exact absurd (by simp) (hg T0 hm)
  | some T => exact ⟨T, List.mem_of_find?_eq_some hg, rfl, by simpa using List.find?_some hg⟩

/-- The machine follows the tables, whatever the number of nested calls. -/
theorem table_sim (G : Good L E txt) (A : Acts L E X act) : ∀ n, Follows L E X (4 * n + 2) (table (natConf L.v txt act) L.sl n) := by
  intro n
  induction n with
  | zero =>
    intro t s r m _ hr h _ hst hn
    have := hn (by rw [← hr, table])
    obtain ⟨m1, r1, e1⟩ := seg_deep L.tab (L.addr L.first) (BitVec.ofNat 8 (2 * L.exts.length)) L.err m (by omega) hst
    refine .inr ⟨m1, .of r1, ?_, ?_⟩
    · rw [e1]; show 239 < stkSize m.stk + 1 + 1; omega
    · rw [e1]; show stkSize m.stk + 1 + 1 ≤ _; omega
  | succ n ih =>
    intro t s r m ht hr h hw hst hn
    obtain ⟨T, hTm, hg, rfl⟩ := get_of_mem ht
    rw [table, hg] at hr
    dsimp only at hr
    by_cases hd : stkSize m.stk + 2 ≤ 239
    · obtain ⟨m1, r1, e1⟩ := seg_sub L.tab (L.addr L.first) (BitVec.ofNat 8 (2 * L.exts.length)) L.err m hd
      have h1 : Rel E s m1.pv := by rw [e1]; exact h.same G rfl rfl rfl rfl rfl rfl rfl rfl
      obtain ⟨m2, r2, h2, s2, p2⟩ := skipws_sim (act := act) G s m1 h1 (by rw [e1])
      have r2' : Reach L.code (L.at engCode.parser_sub) m (L.at engCode.ploop_line) m2 := r1.trans (r2.trans ⟨1, rfl⟩)
      have hwf := G.wf T hTm
      rw [tableOk, Bool.and_eq_true] at hwf
      have z2 : stkSize m2.pv.stk = stkSize m.stk + 2 := by rw [s2]; rfl
      have key := lines_sim G A ih T.complete T.lines _ r m2 hwf.1 hwf.2 hr h2 (by rw [z2]; intro x; have := hn x; omega) (by rw [z2]; omega) (by rw [p2, e1]; show At _ _ (word m.x m.y) _; rw [hw]; exact G.tables T hTm)
      rw [s2] at key
      rcases key with key | key
      · left
        cases r with
        | none => exact key.elim
        | some r =>
          cases r with
          | ok s' => obtain ⟨m3, o, c, r3, h3, s3⟩ := key; exact ⟨m3, o, c, (PRun.of r2').trans r3, h3, s3⟩
          | fail s' => obtain ⟨m3, o, c, r3, h3, s3⟩ := key; exact ⟨m3, o, c, (PRun.of r2').trans r3, h3, s3⟩
          | stop => exact Stops.pre (.of r2') key
      · right
        obtain ⟨m3, r3, x1, x2⟩ := key
        refine ⟨m3, (PRun.of r2').trans r3, x1, ?_⟩
        have : stkSize (.byte m.zp.pptr :: .byte m.a :: m.pv.stk) = stkSize m.stk + 2 := rfl
        rw [this] at x2
        omega
    · obtain ⟨m1, r1, e1⟩ := seg_deep L.tab (L.addr L.first) (BitVec.ofNat 8 (2 * L.exts.length)) L.err m (by omega) hst
      refine .inr ⟨m1, .of r1, ?_, ?_⟩
      · rw [e1]; show 239 < stkSize m.stk + 1 + 1; omega
      · rw [e1]; show stkSize m.stk + 1 + 1 ≤ _; omega

end
end FB.Eng
