import Verif.Eng.Enc
/-!
# The parser of the native compiler interprets the tables

By induction on the tables: the runs of the 6502 code follow `Syn.line`, `Syn.lines` and `Syn.table`.
-/
namespace FB.Eng
open FB.Rt FB.Syn
open FB.Parse (Str Act DCode PCode)

/-! ## Bytes of a line -/

theorem At.append {F : W → Prop} {mem : W → B} {p : W} {a b : List B} : At F mem p (a ++ b) ↔ At F mem p a ∧ At F mem (p + BitVec.ofNat 16 a.length) b := by
  induction a generalizing p with
  | nil => simp [At]
  | cons x xs ih =>
    have e : p + 1 + BitVec.ofNat 16 xs.length = p + BitVec.ofNat 16 (x :: xs).length := by
      rw [BitVec.add_assoc]; congr 1; rw [List.length_cons]; apply BitVec.eq_of_toNat_eq; simp [BitVec.toNat_add]; omega
    rw [List.cons_append, At, At, ih, e]
    constructor
    · rintro ⟨h1, h2, h3, h4, h5⟩; exact ⟨⟨h1, h2, h3, h4⟩, h5⟩
    · rintro ⟨⟨h1, h2, h3, h4⟩, h5⟩; exact ⟨h1, h2, h3, h4, h5⟩

theorem ofNat_add16 (p : W) (a b : Nat) : p + BitVec.ofNat 16 a + BitVec.ofNat 16 b = p + BitVec.ofNat 16 (a + b) := by
  rw [BitVec.add_assoc, BitVec.ofNat_add]

/-- The bytes of the rest of a line. -/
inductive Tail : List B → Prop
  | ret : Tail [1#8]
  | eret (b : B) : Tail [2#8, b]
  | sym {b : B} {bs : List B} (h : 31 ≤ b.toNat) (t : Tail bs) : Tail (b :: bs)
  | emit {b : B} {ds bs : List B} (h : 3 ≤ b.toNat) (h' : b.toNat < 31) (hn : ds.length + 2 = b.toNat) (t : Tail bs) : Tail (b :: (ds ++ bs))

theorem Tail.encEmit {bs : List B} (h : Tail bs) (ds : List B) : Tail (encEmit ds ++ bs) := by
  induction hn : ds.length using Nat.strongRecOn generalizing ds with
  | _ n ih =>
    rw [Eng.encEmit]
    split
    · next hl =>
      split
      · exact h
      · next hne =>
        have h1 : 1 ≤ ds.length := by cases ds with | nil => exact absurd rfl hne | cons _ _ => simp
        have e : (BitVec.ofNat 8 (ds.length + 2)).toNat = ds.length + 2 := by simp; omega
        exact .emit (by omega) (by omega) (by omega) h
    · next hl =>
      rw [List.cons_append, List.append_assoc]
      refine .emit (by decide) (by decide) (by simp; omega) ?_
      exact ih (ds.drop 28).length (by simp; omega) _ rfl

theorem Tail.encRet (ds : List B) : Tail (encRet ds) := by
  unfold Eng.encRet
  split
  · exact .ret
  · exact Tail.encEmit (.eret _) _

theorem Tail.lit {bs : List B} (h : Tail bs) : ∀ s : Str, (s.all fun c => decide (31 ≤ c) && decide (c < 128)) = true → Tail (s.map (fun c => BitVec.ofNat 8 c) ++ bs)
  | [], _ => h
  | c :: cs, hc => by
    simp only [List.all_cons, Bool.and_eq_true, decide_eq_true_eq] at hc
    refine .sym ?_ (Tail.lit h cs (by simpa using hc.2))
    simp; omega

theorem Tail.encLine {v : Syms} {exts : List Act} {sl : SMs} (hc : exts.length + sl.length ≤ 128) : ∀ l : List PCode, lineOk v exts sl l = true → Tail (encLine v exts sl l) := by
  intro l
  induction l with
  | nil => intro h; exact absurd h nofun
  | cons c cs ih =>
    intro h
    rw [Eng.encLine, List.flatMap_cons]
    have body : bodyOk v exts sl c = true → lineOk v exts sl cs = true → Tail (encCode v exts sl c ++ cs.flatMap (encCode v exts sl)) := by
      intro hb hl
      have t : Tail (cs.flatMap (encCode v exts sl)) := ih hl
      cases c with
      | lit s => exact t.lit s hb
      | emit d => exact t.encEmit _
      | emitRet d => exact absurd hb nofun
      | ret => exact absurd hb nofun
      | ext a =>
        have hm : a ∈ exts := by simpa [bodyOk] using hb
        have := List.idxOf_lt_length_of_mem hm
        refine .sym ?_ t
        rw [extNum]; simp; omega
      | call n =>
        have hm : n ∈ sl.map SM.name := by simpa [bodyOk] using hb
        have := List.idxOf_lt_length_of_mem hm
        rw [List.length_map] at this
        refine .sym ?_ t
        rw [tabNum]; simp; omega
    cases cs with
    | nil =>
      cases c with
      | ret => exact .ret
      | emitRet d => rw [List.flatMap_nil, List.append_nil]; exact Tail.encRet _
      | _ => simp [lineOk] at h
    | cons c' cs' =>
      have : (bodyOk v exts sl c && lineOk v exts sl (c' :: cs')) = true := by cases c <;> exact h
      rw [Bool.and_eq_true] at this
      exact body this.1 this.2

/-! ## The relation -/

section
variable {ρ : Type} {L : Lay} {E : Mem ρ} {txt : Str} {X : W → M → Option M → Prop}

/-- Changes of the pointers and of the stack. -/
theorem Rel.same (G : Good L E txt) {s : St B ρ} {v v' : PV} (h : Rel E s v) (hc : v'.ci = v.ci) (ho : v'.op = v.op) (hr : v'.ram = v.ram) (hz : v'.z = v.z)
    (h1 : v'.sl = v.sl) (h2 : v'.sh = v.sh) (h3 : v'.out = v.out) (h4 : v'.dev = v.dev) : Rel E s v' where
  pos := by rw [hc]; exact h.pos
  ple := h.ple
  op := by rw [ho]; exact h.op
  buf := by rw [hr]; exact h.buf
  fix := by rw [hr]; exact h.fix
  prog := by rw [hz]; exact h.prog
  inb := by rw [hz]; exact h.inb
  rest := G.free _ v v' hz h1 h2 h3 h4 (fun w _ => by rw [hr]) h.rest

/-- Changes of the positions. -/
theorem Rel.move (G : Good L E txt) {s s' : St B ρ} {v v' : PV} (h : Rel E s v) (hb : s'.buf = s.buf) (hs : s'.rest = s.rest) (hc : v'.ci.toNat = s'.pos) (hp : s'.pos ≤ E.e) (ho : v'.op.toNat = s'.opos)
    (hr : v'.ram = v.ram) (hz : v'.z = v.z) (h1 : v'.sl = v.sl) (h2 : v'.sh = v.sh) (h3 : v'.out = v.out) (h4 : v'.dev = v.dev) : Rel E s' v' where
  pos := hc
  ple := hp
  op := ho
  buf := by rw [hr, hb]; exact h.buf
  fix := by rw [hr]; exact h.fix
  prog := by rw [hz]; exact h.prog
  inb := by rw [hz]; exact h.inb
  rest := by rw [hs]; exact G.free _ v v' hz h1 h2 h3 h4 (fun w _ => by rw [hr]) h.rest

theorem ofNat16_inj {p : W} {i j : Nat} (hi : i < 256) (hj : j < 256) (h : p + BitVec.ofNat 16 i = p + BitVec.ofNat 16 j) : i = j := by
  have := congrArg BitVec.toNat h
  simp [BitVec.toNat_add] at this
  have := p.isLt
  omega

/-- A byte emitted. -/
theorem Rel.emit (G : Good L E txt) {s : St B ρ} {v : PV} (h : Rel E s v) (b : B) (hz : ¬ v.op + 1#8 = 0#8) :
    Rel E { s with opos := s.opos + 1, buf := fun i => if i = s.opos then b else s.buf i } (v.emit b) := by
  have hlt := v.op.isLt
  have hne : v.op.toNat + 1 < 256 := by
    have : v.op.toNat ≠ 255 := by intro e; exact hz (BitVec.eq_of_toNat_eq (by simp [BitVec.toNat_add, e]))
    omega
  have hop := h.op
  have ea : idx (word v.z.prgp v.z.prgph) v.op = E.prog + BitVec.ofNat 16 s.opos := by rw [idx, h.prog, hop]
  constructor
  · exact h.pos
  · exact h.ple
  · show (v.op + 1).toNat = s.opos + 1
    rw [BitVec.toNat_add, hop, Nat.mod_eq_of_lt (by rw [← hop]; exact hne)]; rfl
  · intro i hi
    show upd v.ram _ b _ = if i = s.opos then b else s.buf i
    rw [ea, upd]
    by_cases he : i = s.opos
    · rw [if_pos (by rw [he]), if_pos he]
    · rw [if_neg (fun x => he (ofNat16_inj hi (by omega) x)), if_neg he]; exact h.buf i hi
  · intro w hw
    show upd v.ram _ b _ = _
    rw [ea, upd, if_neg (G.off w hw s.opos (by omega))]
    exact h.fix w hw
  · exact h.prog
  · exact h.inb
  · refine G.free _ v _ rfl rfl rfl rfl rfl ?_ h.rest
    intro w hw
    show upd v.ram _ b _ = _
    rw [ea, upd, if_neg (hw s.opos (by omega))]

/-- The character at the position. -/
theorem Rel.ch (G : Good L E txt) {s : St B ρ} {v : PV} (h : Rel E s v) : txt[s.pos]? = some v.ch.toNat ∧ (v.ch ≠ 155#8 → s.pos + 1 ≤ E.e) := by
  obtain ⟨hF, ht⟩ := G.text s.pos h.ple
  have e : v.ch = E.mem (E.ib + BitVec.ofNat 16 s.pos) := by rw [PV.ch, h.inb, idx, h.pos]; exact h.fix _ hF
  refine ⟨by rw [e]; exact ht, fun hne => ?_⟩
  have : s.pos ≠ E.e := by intro x; apply hne; rw [e, x]; exact G.eol
  have := h.ple
  omega

theorem Rel.read {s : St B ρ} {v : PV} (h : Rel E s v) {b : B} {bs : List B} (ha : At E.F E.mem v.pp (b :: bs)) : v.ram (v.pp + 1) = b := by
  rw [h.fix _ ha.1]; exact ha.2.2.1

/-- The place where the parser goes on: literals are skipped after an abbreviation. -/
abbrev Lay.loop (L : Lay) (b : Bool) : Code := if b then L.at engCode.skip_chars else L.at engCode.ploop

/-- A code that is a call. -/
theorem fetch_call (G : Good L E txt) (b : Bool) {s : St B ρ} {m : M} (h : Rel E s m.pv) {x : B} {bs : List B} (ha : At E.F E.mem m.pv.pp (x :: bs)) (hx : 128 ≤ x.toNat) :
    ∃ m', Reach L.code (L.loop b) m (L.at engCode.ploop_nofetch) m' ∧ Rel E s m'.pv ∧ m'.pv.stk = m.pv.stk ∧ m'.pv.pp = m.pv.pp + 1 ∧ m'.a = x ∧ m'.n = topBit m'.a := by
  cases b with
  | false =>
    obtain ⟨m', r, e, ea, en, -⟩ := seg_fetch L.tab (L.addr L.first) (BitVec.ofNat 8 (2 * L.exts.length)) L.err m
    refine ⟨m', r, ?_, by rw [e], by rw [e], by rw [ea]; exact h.read ha, en⟩
    rw [e]; exact h.same G rfl rfl rfl rfl rfl rfl rfl rfl
  | true =>
    obtain ⟨m', r, e, ea, en, -⟩ := seg_fetch_skip L.tab (L.addr L.first) (BitVec.ofNat 8 (2 * L.exts.length)) L.err m
    have ha' : m'.a = x := by rw [ea]; exact h.read ha
    refine ⟨m', r.trans (seg_skip_call _ _ _ _ m' en (by rw [ha']; exact hx)), ?_, by rw [e], by rw [e], ha', en⟩
    rw [e]; exact h.same G rfl rfl rfl rfl rfl rfl rfl rfl

/-- A code that is not a call nor a literal. -/
theorem fetch_code (G : Good L E txt) (b : Bool) {s : St B ρ} {m : M} (h : Rel E s m.pv) {x : B} {bs : List B} (ha : At E.F E.mem m.pv.pp (x :: bs)) (hx : x.toNat < 31) :
    ∃ m', Reach L.code (L.loop b) m (L.at engCode.ploop_tax) m' ∧ Rel E s m'.pv ∧ m'.pv.stk = m.pv.stk ∧ m'.pv.pp = m.pv.pp + 1 ∧ m'.a = x ∧ m'.c = false := by
  cases b with
  | false =>
    obtain ⟨m', r, e, ea, en, -⟩ := seg_fetch L.tab (L.addr L.first) (BitVec.ofNat 8 (2 * L.exts.length)) L.err m
    have ha' : m'.a = x := by rw [ea]; exact h.read ha
    obtain ⟨m2, r2, e2, a2, c2⟩ := seg_code L.tab (L.addr L.first) (BitVec.ofNat 8 (2 * L.exts.length)) L.err m' en (by rw [ha']; exact hx)
    refine ⟨m2, r.trans r2, ?_, by rw [e2, e], by rw [e2, e], by rw [a2, ha'], c2⟩
    rw [e2, e]; exact h.same G rfl rfl rfl rfl rfl rfl rfl rfl
  | true =>
    obtain ⟨m', r, e, ea, en, -⟩ := seg_fetch_skip L.tab (L.addr L.first) (BitVec.ofNat 8 (2 * L.exts.length)) L.err m
    have ha' : m'.a = x := by rw [ea]; exact h.read ha
    obtain ⟨m2, r2, e2, a2, c2⟩ := seg_skip_code L.tab (L.addr L.first) (BitVec.ofNat 8 (2 * L.exts.length)) L.err m' en (by rw [ha']; exact hx)
    refine ⟨m2, r.trans r2, ?_, by rw [e2, e], by rw [e2, e], by rw [a2, ha'], c2⟩
    rw [e2, e]; exact h.same G rfl rfl rfl rfl rfl rfl rfl rfl

/-! ## Literals -/

/-- Characters of the tables. -/
def Chars (s : Str) : Prop := ∀ c ∈ s, 31 ≤ c ∧ c < 128

/-- The bytes of a literal. -/
abbrev chs (s : Str) : List B := s.map fun c => BitVec.ofNat 8 c

/-- Skipping a literal. -/
theorem skip_sim (G : Good L E txt) (rest : List B) : ∀ (str : Str) (s : St B ρ) (m : M), Chars str → Rel E s m.pv → At E.F E.mem m.pv.pp (chs str ++ rest) →
    ∃ m', Reach L.code (L.at engCode.skip_chars) m (L.at engCode.skip_chars) m' ∧ Rel E s m'.pv ∧ m'.pv.stk = m.pv.stk ∧ m'.pv.pp = m.pv.pp + BitVec.ofNat 16 str.length ∧ At E.F E.mem m'.pv.pp rest
  | [], s, m, _, h, ha => ⟨m, .refl _ _ _, h, rfl, by simp, ha⟩
  | c :: cs, s, m, hc, h, ha => by
    obtain ⟨m1, r1, e1, ea, en, -⟩ := seg_fetch_skip L.tab (L.addr L.first) (BitVec.ofNat 8 (2 * L.exts.length)) L.err m
    have ha' : m1.a = BitVec.ofNat 8 c := by rw [ea]; exact h.read ha
    have ⟨h31, h128⟩ := hc c (by simp)
    have en' : m1.a.toNat = c := by rw [ha']; simp; omega
    obtain ⟨m2, r2, e2⟩ := seg_skip_char L.tab (L.addr L.first) (BitVec.ofNat 8 (2 * L.exts.length)) L.err m1 en (by omega) (by omega)
    have h2 : Rel E s m2.pv := by rw [e2, e1]; exact h.same G rfl rfl rfl rfl rfl rfl rfl rfl
    obtain ⟨m3, r3, h3, s3, p3, a3⟩ := skip_sim G rest cs s m2 (fun x hx => hc x (by simp [hx])) h2 (by rw [e2, e1]; exact ha.2.2.2)
    refine ⟨m3, r1.trans (r2.trans r3), h3, by rw [s3, e2, e1], ?_, a3⟩
    rw [p3, e2, e1]
    show m.pv.pp + 1 + _ = _
    rw [show (1 : W) = BitVec.ofNat 16 1 from rfl, ofNat_add16, List.length_cons, Nat.add_comm]

/-- The result of a literal on the machine. -/
def LitSim (L : Lay) (E : Mem ρ) (len : Nat) (rest : List B) (m : M) : LitRes B ρ → Prop
  | .yes s => ∃ m', Reach L.code (L.at engCode.ploop) m (L.at engCode.ploop) m' ∧ Rel E s m'.pv ∧ m'.pv.stk = m.pv.stk ∧ m'.pv.pp = m.pv.pp + BitVec.ofNat 16 len ∧ At E.F E.mem m'.pv.pp rest
  | .dot s => ∃ m' str, Chars str ∧ Reach L.code (L.at engCode.ploop) m (L.at engCode.skip_chars) m' ∧ Rel E s m'.pv ∧ m'.pv.stk = m.pv.stk ∧
      m'.pv.pp + BitVec.ofNat 16 str.length = m.pv.pp + BitVec.ofNat 16 len ∧ At E.F E.mem m'.pv.pp (chs str ++ rest)
  | .no s => ∃ m' str, Chars str ∧ Reach L.code (L.at engCode.ploop) m (L.at engCode.ploop_nextline) m' ∧ Rel E s m'.pv ∧ m'.pv.stk = m.pv.stk ∧
      m'.pv.pp + BitVec.ofNat 16 str.length = m.pv.pp + BitVec.ofNat 16 len ∧ str.length < len ∧ At E.F E.mem m'.pv.pp (chs str ++ rest)

theorem lit_sim (G : Good L E txt) (rest : List B) : ∀ (str : Str) (s : St B ρ) (m : M), Chars str → Rel E s m.pv → At E.F E.mem m.pv.pp (chs str ++ rest) →
    LitSim L E str.length rest m (litMatch txt str s)
  | [], s, m, _, h, ha => ⟨m, .refl _ _ _, h, rfl, by simp, ha⟩
  | c :: cs, s, m, hc, h, ha => by
    obtain ⟨m1, r1, e1, ea, en, -⟩ := seg_fetch L.tab (L.addr L.first) (BitVec.ofNat 8 (2 * L.exts.length)) L.err m
    have ha' : m1.a = BitVec.ofNat 8 c := by rw [ea]; exact h.read ha
    have ⟨h31, h128⟩ := hc c (by simp)
    have hcs : Chars cs := fun x hx => hc x (by simp [hx])
    have en' : m1.a.toNat = c := by rw [ha']; simp; omega
    obtain ⟨m2, r2, e2, a2, x2⟩ := seg_char L.tab (L.addr L.first) (BitVec.ofNat 8 (2 * L.exts.length)) L.err m1 en (by omega) (by omega)
    have r12 := r1.trans r2
    have e12 : m2.pv = { m.pv with pp := m.pv.pp + 1 } := e2.trans e1
    have h2 : Rel E s m2.pv := by rw [e12]; exact h.same G rfl rfl rfl rfl rfl rfl rfl rfl
    have n2 : m2.a.toNat = c := by rw [a2]; exact en'
    have at2 : At E.F E.mem m2.pv.pp (chs cs ++ rest) := by rw [e12]; exact ha.2.2.2
    have len : m2.pv.pp + BitVec.ofNat 16 cs.length = m.pv.pp + BitVec.ofNat 16 (c :: cs).length := by
      rw [e12]
      show m.pv.pp + 1 + _ = _
      rw [show (1 : W) = BitVec.ofNat 16 1 from rfl, ofNat_add16, List.length_cons, Nat.add_comm]
    obtain ⟨ht, hlt⟩ := h2.ch G
    have hwrap : m2.pv.ch ≠ 155#8 → (m2.pv.ci + 1).toNat = s.pos + 1 ∧ ¬ m2.pv.ci + 1#8 = 0#8 ∧ s.pos + 1 ≤ E.e := by
      intro hne
      have h1 := hlt hne
      have h0 := G.elt
      have hp := h2.pos
      have e : (m2.pv.ci + 1).toNat = s.pos + 1 := by rw [BitVec.toNat_add, hp]; exact Nat.mod_eq_of_lt (by simp; omega)
      refine ⟨e, fun hz => ?_, h1⟩
      have : m2.pv.ci + 1 = 0#8 := hz
      rw [this] at e
      exact absurd e (by simp)
    -- the comparison with a character
    have cmp : ∀ m3 : M, Reach L.code (L.at engCode.ploop) m (L.at engCode.match) m3 → m3.pv = m2.pv → m3.y = m2.pv.ci → m3.a.toNat < 128 →
        LitSim L E (c :: cs).length rest m (if txt[s.pos]? = some m3.a.toNat then litMatch txt cs { s with pos := s.pos + 1 } else .no s) := by
      intro m3 r3 e3 y3 a3
      by_cases hm : m3.pv.ch = m3.a
      · rw [if_pos (by rw [ht, ← hm, e3])]
        obtain ⟨w1, w2, w3⟩ := hwrap (by rw [← e3, hm]; intro x; rw [x] at a3; exact absurd a3 (by decide))
        obtain ⟨m4, r4, e4⟩ := seg_match L.tab (L.addr L.first) (BitVec.ofNat 8 (2 * L.exts.length)) L.err m3 (by rw [y3, e3]) hm (by rw [e3]; exact w2)
        have h4 : Rel E { s with pos := s.pos + 1 } m4.pv := by
          rw [e4, e3]; exact h2.move G rfl rfl w1 w3 h2.op rfl rfl rfl rfl rfl rfl
        have st4 : m4.pv.stk = m.pv.stk := by rw [e4, e3, e12]
        have pp4 : m4.pv.pp = m2.pv.pp := by rw [e4, e3]
        have r := lit_sim G rest cs _ m4 hcs h4 (by rw [pp4]; exact at2)
        revert r
        cases litMatch txt cs { s with pos := s.pos + 1 } with
        | yes s' =>
          rintro ⟨m5, r5, h5, s5, p5, a5⟩
          exact ⟨m5, r3.trans (r4.trans r5), h5, s5.trans st4, by rw [p5, pp4]; exact len, a5⟩
        | dot s' =>
          rintro ⟨m5, str, c5, r5, h5, s5, p5, a5⟩
          exact ⟨m5, str, c5, r3.trans (r4.trans r5), h5, s5.trans st4, by rw [p5, pp4]; exact len, a5⟩
        | no s' =>
          rintro ⟨m5, str, c5, r5, h5, s5, p5, l5, a5⟩
          exact ⟨m5, str, c5, r3.trans (r4.trans r5), h5, s5.trans st4, by rw [p5, pp4]; exact len, by simp; omega, a5⟩
      · rw [if_neg (by rw [ht, ← e3]; intro x; exact hm (BitVec.eq_of_toNat_eq (Option.some.inj x)))]
        obtain ⟨m4, r4, e4⟩ := seg_nomatch L.tab (L.addr L.first) (BitVec.ofNat 8 (2 * L.exts.length)) L.err m3 (by rw [y3, e3]) hm
        refine ⟨m4, cs, hcs, r3.trans r4, ?_, by rw [e4, e3, e12], by rw [e4, e3]; exact len, by simp, by rw [e4, e3]; exact at2⟩
        rw [e4, e3]; exact h2
    rw [litMatch]
    by_cases h97 : 97 ≤ c
    · rw [if_pos h97]
      by_cases hd : m2.pv.ch = 46#8
      · have : txt[s.pos]? = some 46 := by rw [ht, hd]; rfl
        rw [if_pos this]
        obtain ⟨m3, r3, e3⟩ := seg_dot L.tab (L.addr L.first) (BitVec.ofNat 8 (2 * L.exts.length)) L.err m2 (by omega) hd
        obtain ⟨w1, w2, w3⟩ := hwrap (by rw [hd]; decide)
        refine ⟨m3, cs, hcs, r12.trans r3, ?_, by rw [e3, e12], by rw [e3]; exact len, by rw [e3]; exact at2⟩
        rw [e3]; exact h2.move G rfl rfl w1 w3 h2.op rfl rfl rfl rfl rfl rfl
      · have : ¬ txt[s.pos]? = some 46 := by
          rw [ht]; intro x; apply hd; apply BitVec.eq_of_toNat_eq; rw [Option.some.inj x]; rfl
        rw [if_neg this]
        obtain ⟨m3, r3, e3, a3, y3⟩ := seg_lower L.tab (L.addr L.first) (BitVec.ofNat 8 (2 * L.exts.length)) L.err m2 (by rw [x2, a2]) (by omega) hd
        have ex : m3.a.toNat = c ^^^ 32 := by rw [a3, BitVec.toNat_xor, n2]; rfl
        have hx : m3.a.toNat < 128 := by rw [ex]; exact Nat.xor_lt_two_pow (n := 7) h128 (by decide)
        have := cmp m3 (r12.trans r3) e3 y3 hx
        rw [ex] at this
        exact this
    · rw [if_neg h97]
      obtain ⟨m3, r3, e3, a3, y3⟩ := seg_upper L.tab (L.addr L.first) (BitVec.ofNat 8 (2 * L.exts.length)) L.err m2 (by omega)
      have ex : m3.a.toNat = c := by rw [a3, n2]
      have := cmp m3 (r12.trans r3) e3 y3 (by omega)
      rw [ex] at this
      exact this

/-! ## Emit -/

/-- The result of emitting on the machine: to place `k`. -/
def PutSim (L : Lay) (E : Mem ρ) (k0 : Code) (m : M) (k : Code) (st : List Slot) (p : W) : Syn.Out B ρ → Prop
  | .ok s => ∃ m', Reach L.code k0 m k m' ∧ Rel E s m'.pv ∧ m'.pv.stk = st ∧ m'.pv.pp = p
  | .fail _ => False
  | .stop => ∃ m', Reach L.code k0 m (L.at engCode.too_long) m'

theorem PutSim.pre {k0 k1 k : Code} {m m1 : M} {st : List Slot} {p : W} {r : Syn.Out B ρ} (h : Reach L.code k0 m k1 m1) (h' : PutSim L E k1 m1 k st p r) : PutSim L E k0 m k st p r := by
  cases r with
  | ok s => obtain ⟨m', r, x⟩ := h'; exact ⟨m', h.trans r, x⟩
  | fail s => exact h'
  | stop => obtain ⟨m', r⟩ := h'; exact ⟨m', h.trans r⟩

variable {act : Act → St B ρ → Syn.Out B ρ}

theorem put_lim (h : (natConf L.v txt act).lim = 256) {s : St B ρ} {v : PV} (hr : Rel E s v) : s.opos + 1 = (natConf L.v txt act).lim ↔ v.op + 1#8 = 0#8 := by
  rw [h, ← hr.op]
  have := v.op.isLt
  constructor
  · intro e; apply BitVec.eq_of_toNat_eq; simp [BitVec.toNat_add]; omega
  · intro e; have := congrArg BitVec.toNat e; simp [BitVec.toNat_add] at this; omega

/-- The loop that emits. -/
theorem emit_loop_sim (G : Good L E txt) (rest : List B) : ∀ (ds : List B) (s : St B ρ) (m : M), ds ≠ [] → ds.length = m.x.toNat → Rel E s m.pv → At E.F E.mem m.pv.pp (ds ++ rest) →
    PutSim L E (L.at engCode.emit_loop) m (L.at engCode.ploop) m.pv.stk (m.pv.pp + BitVec.ofNat 16 ds.length) ((natConf L.v txt act).put ds s)
  | [], _, _, hne, _, _, _ => absurd rfl hne
  | d :: ds, s, m, _, hl, h, ha => by
    rw [Conf.put]
    by_cases hz : m.pv.op + 1#8 = 0#8
    · rw [if_pos ((put_lim rfl h).mpr hz)]
      exact seg_emit_long _ _ _ _ m hz
    · rw [if_neg (fun x => hz ((put_lim rfl h).mp x))]
      obtain ⟨m1, r1, e1, x1⟩ := seg_emit1 L.tab (L.addr L.first) (BitVec.ofNat 8 (2 * L.exts.length)) L.err m hz
      have hd : m.pv.ram (m.pv.pp + 1) = d := h.read ha
      rw [hd] at e1
      have h1 := h.emit G d hz
      rw [← e1] at h1
      have p1 : m1.pv.pp = m.pv.pp + 1 := by rw [e1]; rfl
      have s1 : m1.pv.stk = m.pv.stk := by rw [e1]; rfl
      cases ds with
      | nil =>
        have hx : m1.x = 1#8 := by rw [x1]; apply BitVec.eq_of_toNat_eq; rw [← hl]; rfl
        obtain ⟨m2, r2, e2⟩ := seg_emit_end L.tab (L.addr L.first) (BitVec.ofNat 8 (2 * L.exts.length)) L.err m1 hx
        exact ⟨m2, r1.trans r2, by rw [e2]; exact h1, by rw [e2, s1], by rw [e2, p1]; rfl⟩
      | cons d' ds =>
        have hx : 2 ≤ m1.x.toNat := by rw [x1, ← hl]; simp
        obtain ⟨m2, r2, e2, x2⟩ := seg_emit_more L.tab (L.addr L.first) (BitVec.ofNat 8 (2 * L.exts.length)) L.err m1 hx
        have hl2 : (d' :: ds).length = m2.x.toNat := by
          rw [x2, x1]
          have e : (d :: d' :: ds).length = (d' :: ds).length + 1 := rfl
          have := m.x.isLt
          rw [e] at hl
          rw [x1] at hx
          rw [BitVec.toNat_sub]
          simp only [BitVec.toNat_ofNat]
          omega
        have ih := emit_loop_sim G rest (d' :: ds) _ m2 (by simp) hl2 (by rw [e2]; exact h1) (by rw [e2, p1]; exact ha.2.2.2)
        have ep : m2.pv.pp + BitVec.ofNat 16 (d' :: ds).length = m.pv.pp + BitVec.ofNat 16 (d :: d' :: ds).length := by
          rw [e2, p1, show (1 : W) = BitVec.ofNat 16 1 from rfl, ofNat_add16]
          congr 2
          simp only [List.length_cons]
          omega
        rw [ep, e2, s1] at ih
        exact PutSim.pre (r1.trans r2) ih

theorem put_append (C : Conf B ρ) : ∀ (a b : List B) (s : St B ρ), C.put (a ++ b) s = match C.put a s with | .ok s => C.put b s | r => r
  | [], _, _ => rfl
  | x :: xs, b, s => by
    rw [List.cons_append, Conf.put, Conf.put]
    split
    · rfl
    · exact put_append C xs b _

/-- `SM_EMIT_n`. -/
theorem emit_code_sim (G : Good L E txt) (b : Bool) (rest : List B) (x : B) (ds : List B) (s : St B ρ) (m : M) (hne : ds ≠ []) (hl : ds.length ≤ 28) (hx : x = BitVec.ofNat 8 (ds.length + 2))
    (h : Rel E s m.pv) (ha : At E.F E.mem m.pv.pp (x :: (ds ++ rest))) :
    PutSim L E (L.loop b) m (L.at engCode.ploop) m.pv.stk (m.pv.pp + BitVec.ofNat 16 (ds.length + 1)) ((natConf L.v txt act).put ds s) := by
  have h1 : 1 ≤ ds.length := by cases ds with | nil => exact absurd rfl hne | cons _ _ => simp
  have ex : x.toNat = ds.length + 2 := by rw [hx]; simp; omega
  obtain ⟨m1, r1, h1', s1, p1, a1, c1⟩ := fetch_code G b h ha (by omega)
  obtain ⟨m2, r2, e2, x2⟩ := seg_emit L.tab (L.addr L.first) (BitVec.ofNat 8 (2 * L.exts.length)) L.err m1 c1 (by rw [a1]; omega)
  have hx2 : ds.length = m2.x.toNat := by
    rw [x2, a1, BitVec.toNat_sub]
    simp only [BitVec.toNat_ofNat]
    omega
  have := emit_loop_sim (act := act) G rest ds s m2 hne hx2 (by rw [e2]; exact h1') (by rw [e2, p1]; exact ha.2.2.2)
  rw [e2, s1, p1, show (1 : W) = BitVec.ofNat 16 1 from rfl, ofNat_add16, Nat.add_comm 1] at this
  exact PutSim.pre (r1.trans r2) this

/-- All the codes of an emit. -/
theorem emit_sim (G : Good L E txt) (rest : List B) (ds : List B) (b : Bool) (s : St B ρ) (m : M) (hne : ds ≠ [])
    (h : Rel E s m.pv) (ha : At E.F E.mem m.pv.pp (encEmit ds ++ rest)) :
    PutSim L E (L.loop b) m (L.at engCode.ploop) m.pv.stk (m.pv.pp + BitVec.ofNat 16 (encEmit ds).length) ((natConf L.v txt act).put ds s) := by
  induction hn : ds.length using Nat.strongRecOn generalizing ds b s m with
  | _ n ih =>
    rw [encEmit] at ha ⊢
    split at ha
    · next hl =>
      rw [if_pos hl, if_neg hne]
      exact emit_code_sim G b rest _ ds s m hne hl rfl h ha
    · next hl =>
      rw [if_neg hl]
      rw [List.cons_append, List.append_assoc] at ha
      have e28 : (ds.take 28).length = 28 := by simp; omega
      have key := emit_code_sim (act := act) G b (encEmit (ds.drop 28) ++ rest) 30#8 (ds.take 28) s m (by intro x; rw [x] at e28; simp at e28) (by omega) (by rw [e28]) h ha
      have ha2 : At E.F E.mem (m.pv.pp + BitVec.ofNat 16 ((ds.take 28).length + 1)) (encEmit (ds.drop 28) ++ rest) := by
        have := (At.append (a := 30#8 :: ds.take 28) (b := encEmit (ds.drop 28) ++ rest) (p := m.pv.pp) (F := E.F) (mem := E.mem)).mp (by simpa using ha)
        exact this.2
      have hput : (natConf L.v txt act).put ds s = match (natConf L.v txt act).put (ds.take 28) s with | .ok s => (natConf L.v txt act).put (ds.drop 28) s | r => r := by
        rw [← put_append, List.take_append_drop]
      rw [hput]
      revert key
      cases (natConf L.v txt act).put (ds.take 28) s with
      | stop => exact fun key => key
      | fail s' => exact fun key => key
      | ok s' =>
        rintro ⟨m1, r1, h1, s1, p1⟩
        have := ih (ds.drop 28).length (by simp; omega) (ds.drop 28) false s' m1 (by intro x; have := congrArg List.length x; simp at this; omega) h1 (by rw [p1]; exact ha2) rfl
        rw [s1, p1, ofNat_add16] at this
        have el : (30#8 :: (ds.take 28 ++ encEmit (ds.drop 28))).length = (ds.take 28).length + 1 + (encEmit (ds.drop 28)).length := by
          rw [List.length_cons, List.length_append]; omega
        rw [el]
        exact PutSim.pre r1 this

/-- Emit and return. -/
theorem eret_sim (G : Good L E txt) (ds : List B) (b : Bool) (s : St B ρ) (m : M)
    (h : Rel E s m.pv) (ha : At E.F E.mem m.pv.pp (encRet ds)) :
    ∃ p, PutSim L E (L.loop b) m (L.at engCode.pexit_ok) m.pv.stk p ((natConf L.v txt act).put ds s) := by
  unfold encRet at ha
  cases hl : ds.getLast? with
  | none =>
    rw [hl] at ha
    have : ds = [] := by simpa using hl
    subst this
    obtain ⟨m1, r1, h1, s1, p1, a1, c1⟩ := fetch_code G b h ha (by decide)
    obtain ⟨m2, r2, e2⟩ := seg_ret L.tab (L.addr L.first) (BitVec.ofNat 8 (2 * L.exts.length)) L.err m1 c1 a1
    exact ⟨_, m2, r1.trans r2, by rw [e2]; exact h1, by rw [e2, s1], rfl⟩
  | some x =>
    rw [hl] at ha
    dsimp only at ha
    have eds : ds = ds.dropLast ++ [x] := by
      have := List.getLast?_eq_some_iff.mp hl
      obtain ⟨y, hy⟩ := this
      rw [hy, List.dropLast_concat]
    have last : ∀ (b : Bool) (s : St B ρ) (m1 : M), Rel E s m1.pv → At E.F E.mem m1.pv.pp [2#8, x] → ∃ p, PutSim L E (L.loop b) m1 (L.at engCode.pexit_ok) m1.pv.stk p ((natConf L.v txt act).put [x] s) := by
      intro b s m1 h1 ha1
      obtain ⟨m2, r2, h2, s2, p2, a2, c2⟩ := fetch_code G b h1 ha1 (by decide)
      obtain ⟨m3, r3, e3⟩ := seg_eret L.tab (L.addr L.first) (BitVec.ofNat 8 (2 * L.exts.length)) L.err m2 c2 a2
      have h3 : Rel E s m3.pv := by rw [e3]; exact h2
      rw [Conf.put]
      by_cases hz : m3.pv.op + 1#8 = 0#8
      · rw [if_pos ((put_lim rfl h3).mpr hz)]
        obtain ⟨m4, r4⟩ := seg_ret_long L.tab (L.addr L.first) (BitVec.ofNat 8 (2 * L.exts.length)) L.err m3 hz
        exact ⟨0, m4, r2.trans (r3.trans r4)⟩
      · rw [if_neg (fun y => hz ((put_lim rfl h3).mp y))]
        obtain ⟨m4, r4, e4⟩ := seg_emit_ret L.tab (L.addr L.first) (BitVec.ofNat 8 (2 * L.exts.length)) L.err m3 hz
        have hd : m3.pv.ram (m3.pv.pp + 1) = x := by
          rw [e3]
          exact h2.read (by rw [p2]; exact ha1.2.2.2)
        rw [hd] at e4
        refine ⟨_, m4, r2.trans (r3.trans r4), ?_, ?_, rfl⟩
        · rw [e4]; exact h3.emit G x hz
        · rw [e4, ← s2, e3]; rfl
    by_cases hd : ds.dropLast = []
    · rw [hd] at ha eds
      rw [eds]
      exact last b s m h (by rw [encEmit] at ha; simpa using ha)
    · have key := emit_sim (act := act) G [2#8, x] ds.dropLast b s m hd h ha
      have ha2 := (At.append.mp ha).2
      have hput : (natConf L.v txt act).put ds s = match (natConf L.v txt act).put ds.dropLast s with | .ok s => (natConf L.v txt act).put [x] s | r => r := by
        rw [← put_append, ← eds]
      rw [hput]
      revert key
      cases (natConf L.v txt act).put ds.dropLast s with
      | stop => exact fun key => ⟨0, key⟩
      | fail s' => exact fun key => ⟨0, key⟩
      | ok s' =>
        rintro ⟨m1, r1, h1, s1, p1⟩
        obtain ⟨p, this⟩ := last false s' m1 h1 (by rw [p1]; exact ha2)
        rw [s1] at this
        exact ⟨p, PutSim.pre r1 this⟩

end
end FB.Eng
