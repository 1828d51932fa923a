import Verif.Eng.Acts
import Verif.Props.C33Native
/-!
# C44: the parser of the native compiler interprets the tables

The 6502 code of the parser (`/repo/src/parse.asm`), from `parse_start`, does with the bytes of the tables what the interpreter of `Verif/Syn/Tables.lean` does with
the tables, for all the tables, lines and routines.
-/
namespace FB.Eng
open FB.Rt FB.Syn
open FB.Parse (Str Act DCode PCode)

section
variable {ρ : Type} {L : Lay} {E : Mem ρ} {txt : Str} {X : W → M → Option M → Prop} {act : Act → St B ρ → Syn.Out B ρ}

/-- How the parser ends a statement. If the tables accept, at the code after `pexit_ok` (`parse.asm:352`) with the state of the parser of tables and the stack as before. If
they do not, at `set_parse_error`. If a routine ends the compilation or the code is too long, with an error. -/
def Ends (L : Lay) (E : Mem ρ) (X : W → M → Option M → Prop) (m : M) : Syn.Out B ρ → Prop
  | .ok s => ∃ m', PRun L X (L.at engCode.parse_start) m (L.at engCode.pdone) m' ∧ Rel E s m'.pv ∧ m'.stk = m.stk
  | .fail _ => ∃ m', PRun L X (L.at engCode.parse_start) m (L.at engCode.set_parse_error) m'
  | .stop => Stops L X (L.at engCode.parse_start) m

/-- From `parse_start` with the tables interpreted to depth `n`. -/
theorem start_sim (G : Good L E txt) (A : Acts L E X act) (n : Nat) (s : St B ρ) (m : M) (ha : m.a = 0) (h : Rel E s m.pv) (hst : stkSize m.stk + 2 < 256)
    (r : Option (Syn.Out B ρ)) (hr : table (natConf L.v txt act) L.sl n L.first s = r) (hn : r = none → 239 < stkSize m.stk + (4 * n + 2)) :
    OSim (Ends L E X m) r ∨ Deep L X (stkSize m.stk + (4 * n + 2)) (L.at engCode.parse_start) m := by
  obtain ⟨m1, r1, e1, x1, y1, a1, p1⟩ := seg_start L.tab (L.addr L.first) (BitVec.ofNat 8 (2 * L.exts.length)) L.err m
  have z1 : m1.stk = m.stk := congrArg PV.stk e1
  have hw : word m1.x m1.y = L.addr L.first - 1 := by rw [x1, y1]; exact word_lohi _
  have key := table_sim G A n L.first s r m1 G.start hr (by rw [e1]; exact h) hw (by rw [z1]; exact hst) (by rw [z1]; exact hn)
  rw [z1] at key
  rcases key with key | key
  · left
    cases r with
    | none => exact key.elim
    | some r =>
      cases r with
      | ok s' =>
        obtain ⟨m2, o, c, r2, h2, s2⟩ := key
        rw [a1, ha] at s2
        obtain ⟨m3, r3, e3⟩ := seg_done L.tab (L.addr L.first) (BitVec.ofNat 8 (2 * L.exts.length)) L.err m2 s2
        refine ⟨m3, (PRun.of r1).trans (r2.trans (.of r3)), ?_, ?_⟩
        · rw [e3]; exact h2.same G rfl rfl rfl rfl rfl rfl rfl rfl
        · show m3.pv.stk = _
          rw [e3]; exact z1
      | fail s' =>
        obtain ⟨m2, o, c, r2, h2, s2⟩ := key
        rw [a1, ha] at s2
        obtain ⟨m3, r3, e3⟩ := seg_parse_err L.tab (L.addr L.first) (BitVec.ofNat 8 (2 * L.exts.length)) L.err m2 s2
        exact ⟨m3, (PRun.of r1).trans (r2.trans (.of r3))⟩
      | stop => exact Stops.pre (.of r1) key
  · exact .inr (key.pre (.of r1))

/-- The parser ends each statement as the tables say, or it ends the compilation because the stack of the processor is full (more than 239 bytes). -/
theorem C44_parses (G : Good L E txt) (A : Acts L E X act) (s : St B ρ) (m : M) (ha : m.a = 0) (h : Rel E s m.pv) (hst : stkSize m.stk + 2 < 256) (r : Syn.Out B ρ)
    (hr : Parses (natConf L.v txt act) L.sl L.first s r) :
    Ends L E X m r ∨ ∃ m', PRun L X (L.at engCode.parse_start) m (L.at engCode.too_long) m' ∧ 239 < stkSize m'.stk := by
  obtain ⟨n, hn⟩ := hr
  rcases start_sim G A n s m ha h hst (some r) hn nofun with key | ⟨m', x1, x2, -⟩
  · exact .inl key
  · exact .inr ⟨m', x1, x2⟩

/-- The stack is never full if the tables are not nested too deep: each nested table needs four bytes. -/
theorem C44_depth (G : Good L E txt) (A : Acts L E X act) (n : Nat) (s : St B ρ) (m : M) (ha : m.a = 0) (h : Rel E s m.pv) (hd : stkSize m.stk + 4 * n + 2 ≤ 239) (r : Syn.Out B ρ)
    (hr : table (natConf L.v txt act) L.sl n L.first s = some r) : Ends L E X m r := by
  rcases start_sim G A n s m ha h (by omega) (some r) hr nofun with key | ⟨m', -, x2, x3⟩
  · exact key
  · omega

/-- The parser always ends a statement, also if the interpretation of the tables does not (for example, with a table that calls itself first): then the stack is full. -/
theorem C44_ends (G : Good L E txt) (A : Acts L E X act) (s : St B ρ) (m : M) (ha : m.a = 0) (h : Rel E s m.pv) (hst : stkSize m.stk + 2 < 256) :
    (∃ r, Parses (natConf L.v txt act) L.sl L.first s r ∧ Ends L E X m r) ∨
    ∃ m', PRun L X (L.at engCode.parse_start) m (L.at engCode.too_long) m' ∧ 239 < stkSize m'.stk := by
  rcases start_sim G A 60 s m ha h hst _ rfl (fun _ => by omega) with key | ⟨m', x1, x2, -⟩
  · left
    revert key
    cases hr : table (natConf L.v txt act) L.sl 60 L.first s with
    | none => intro key; exact key.elim
    | some r => intro key; exact ⟨r, ⟨60, hr⟩, key⟩
  · exact .inr ⟨m', x1, x2⟩

/-! ## The parser is deterministic -/

/-- The routines have one result. -/
def Functional (X : W → M → Option M → Prop) : Prop := ∀ w m r r', X w m r → X w m r' → r = r'

theorem ml_stuck (m : M) : FB.Rt.step L.code (L.at engCode.pcall_ml) m = .stuck := by
  rw [Lay.at, engCode.pcall_ml.eq]; rfl

theorem conf (hX : Functional X) {k k1 k2 : Code} {m m1 m2 : M} (h1 : PRun L X k m k1 m1) (h2 : PRun L X k m k2 m2) : PRun L X k1 m1 k2 m2 ∨ PRun L X k2 m2 k1 m1 := by
  induction h1 with
  | refl => exact .inl h2
  | step hs r ih =>
    cases h2 with
    | refl => exact .inr (.step hs r)
    | step hs' r' => rw [hs] at hs'; injection hs' with e e'; subst e; subst e'; exact ih r'
    | call hx r' => rw [ml_stuck] at hs; cases hs
  | call hx r ih =>
    cases h2 with
    | refl => exact .inr (.call hx r)
    | step hs' r' => rw [ml_stuck] at hs'; cases hs'
    | call hx' r' => have := hX _ _ _ _ hx hx'; injection this with e; subst e; exact ih r'

theorem PRun.inv {k k2 : Code} {m m2 : M} (h : PRun L X k m k2 m2) : (k2 = k ∧ m2 = m) ∨ (∃ k1 m1, FB.Rt.step L.code k m = .go k1 m1 ∧ PRun L X k1 m1 k2 m2) ∨
    k = L.at engCode.pcall_ml ∧ ∃ m1, X (word m.x m.a + 1) m (some m1) := by
  cases h with
  | refl => exact .inl ⟨rfl, rfl⟩
  | step hs r => exact .inr (.inl ⟨_, _, hs, r⟩)
  | call hx r => exact .inr (.inr ⟨rfl, _, hx⟩)

theorem from_done {k : Code} {m m' : M} (h : PRun L X (L.at engCode.pdone) m k m') : k = L.at engCode.pdone ∧ m' = m := by
  rcases h.inv with h | ⟨k1, m1, hs, -⟩ | ⟨hk, -⟩
  · exact h
  · rw [Lay.at, engCode.pdone.eq] at hs; cases hs
  · simp only [Lay.at, engCode.pdone.eq, engCode.pcall_ml.eq] at hk; simp at hk

theorem from_err {k : Code} {m m' : M} (h : PRun L X (L.at engCode.set_parse_error) m k m') : k = L.at engCode.set_parse_error ∧ m' = m := by
  rcases h.inv with h | ⟨k1, m1, hs, -⟩ | ⟨hk, -⟩
  · exact h
  · rw [Lay.at, engCode.set_parse_error.eq] at hs; cases hs
  · simp only [Lay.at, engCode.set_parse_error.eq, engCode.pcall_ml.eq] at hk; simp at hk

theorem from_ml (hX : Functional X) {k : Code} {m m' : M} (hn : X (word m.x m.a + 1) m none) (h : PRun L X (L.at engCode.pcall_ml) m k m') : k = L.at engCode.pcall_ml ∧ m' = m := by
  rcases h.inv with h | ⟨k1, m1, hs, -⟩ | ⟨hk, m1, hx⟩
  · exact h
  · rw [ml_stuck] at hs; cases hs
  · have := hX _ _ _ _ hn hx; cases this

theorem from_perr {k : Code} {m m' : M} (h : PRun L X (L.at engCode.parser_error) m k m') : k = L.at engCode.parser_error ∧ m' = m := by
  rcases h.inv with h | ⟨k1, m1, hs, -⟩ | ⟨hk, -⟩
  · exact h
  · rw [Lay.at, engCode.parser_error.eq] at hs; cases hs
  · simp only [Lay.at, engCode.parser_error.eq, engCode.pcall_ml.eq] at hk; simp at hk

/-- After `too_long` the parser does not come back. -/
theorem from_long {k : Code} {m m' : M} (h : PRun L X (L.at engCode.too_long) m k m') : k ≠ L.at engCode.pdone ∧ k ≠ L.at engCode.set_parse_error := by
  have e : L.at engCode.too_long = .ins (.ldy (.imm L.err)) :: .lb "parser_error" :: L.at engCode.parser_error := engCode.too_long.eq _ _ _ _
  rcases h.inv with ⟨rfl, -⟩ | ⟨k1, m1, hs, r⟩ | ⟨hk, -⟩
  · simp [engCode.too_long.eq, engCode.pdone.eq, engCode.set_parse_error.eq]
  · rw [e] at hs
    injection hs with e1 e2
    subst e1
    rcases r.inv with ⟨rfl, -⟩ | ⟨k2, m2, hs, r⟩ | ⟨hk, -⟩
    · simp [engCode.pdone.eq, engCode.set_parse_error.eq]
    · injection hs with e1 e2
      subst e1
      rw [(from_perr r).1]
      simp [engCode.parser_error.eq, engCode.pdone.eq, engCode.set_parse_error.eq]
    · simp [engCode.pcall_ml.eq] at hk
  · simp [engCode.too_long.eq, engCode.pcall_ml.eq] at hk

theorem ne1 : L.at engCode.pdone ≠ L.at engCode.set_parse_error := by simp [Lay.at, engCode.pdone.eq, engCode.set_parse_error.eq]
theorem ne2 : L.at engCode.pdone ≠ L.at engCode.pcall_ml := by simp [Lay.at, engCode.pdone.eq, engCode.pcall_ml.eq]
theorem ne3 : L.at engCode.set_parse_error ≠ L.at engCode.pcall_ml := by simp [Lay.at, engCode.set_parse_error.eq, engCode.pcall_ml.eq]

/-- A run that ends with an error cannot get to the end of the statement. -/
theorem not_stops (hX : Functional X) {k k1 : Code} {m m1 : M} (h : PRun L X k m k1 m1) (hk : k1 = L.at engCode.pdone ∨ k1 = L.at engCode.set_parse_error) (hs : Stops L X k m) : False := by
  have ends : ∀ {k' : Code} {m' : M}, PRun L X k1 m1 k' m' → k' = k1 := by
    intro k' m' r
    rcases hk with rfl | rfl
    · exact (from_done r).1
    · exact (from_err r).1
  rcases hs with ⟨m', r⟩ | ⟨m', r, hx⟩
  · rcases conf hX h r with r' | r'
    · have := from_long (.refl (X := X) (L.at engCode.too_long) m')
      rw [ends r'] at this
      rcases hk with e | e
      · exact this.1 e
      · exact this.2 e
    · have := from_long r'
      rcases hk with e | e
      · exact this.1 e
      · exact this.2 e
  · have e : L.at engCode.pcall_ml = k1 := by
      rcases conf hX h r with r' | r'
      · exact ends r'
      · exact (from_ml hX hx r').1.symm
    rcases hk with e' | e'
    · exact ne2 (e'.symm.trans e.symm)
    · exact ne3 (e'.symm.trans e.symm)

/-- If the parser accepts a statement then the tables accept it, with the same state. -/
theorem C44_accepts (hX : Functional X) (G : Good L E txt) (A : Acts L E X act) (s : St B ρ) (m m' : M) (ha : m.a = 0) (h : Rel E s m.pv) (hst : stkSize m.stk + 2 < 256)
    (hm : PRun L X (L.at engCode.parse_start) m (L.at engCode.pdone) m') :
    ∃ s', Parses (natConf L.v txt act) L.sl L.first s (.ok s') ∧ Rel E s' m'.pv ∧ m'.stk = m.stk := by
  rcases C44_ends G A s m ha h hst with ⟨r, hr, he⟩ | ⟨m2, r2, -⟩
  · cases r with
    | ok s' =>
      obtain ⟨m2, r2, h2, s2⟩ := he
      have : m2 = m' := by
        rcases conf hX hm r2 with r | r
        · exact (from_done r).2
        · exact (from_done r).2.symm
      subst this
      exact ⟨s', hr, h2, s2⟩
    | fail s' =>
      obtain ⟨m2, r2⟩ := he
      exfalso
      rcases conf hX hm r2 with r | r
      · exact ne1 (from_done r).1.symm
      · exact ne1 (from_err r).1
    | stop => exact (not_stops hX hm (.inl rfl) he).elim
  · exact (not_stops hX hm (.inl rfl) (.inl ⟨m2, r2⟩)).elim

/-- If the parser rejects a statement then the tables reject it. -/
theorem C44_rejects (hX : Functional X) (G : Good L E txt) (A : Acts L E X act) (s : St B ρ) (m m' : M) (ha : m.a = 0) (h : Rel E s m.pv) (hst : stkSize m.stk + 2 < 256)
    (hm : PRun L X (L.at engCode.parse_start) m (L.at engCode.set_parse_error) m') : ∃ s', Parses (natConf L.v txt act) L.sl L.first s (.fail s') := by
  rcases C44_ends G A s m ha h hst with ⟨r, hr, he⟩ | ⟨m2, r2, -⟩
  · cases r with
    | ok s' =>
      obtain ⟨m2, r2, h2, s2⟩ := he
      exfalso
      rcases conf hX hm r2 with r | r
      · exact ne1 (from_err r).1
      · exact ne1 (from_done r).1.symm
    | fail s' => exact ⟨s', hr⟩
    | stop => exact (not_stops hX hm (.inr rfl) he).elim
  · exact (not_stops hX hm (.inr rfl) (.inl ⟨m2, r2⟩)).elim

end

/-! ## The tables of the native compilers -/

/-- The number of bytes of a code does not depend on the values of the symbols. -/
theorem encD_length (v v' : Syms) (d : DCode) : (encD v d).length = (encD v' d).length := by cases d <;> rfl

theorem flat_length (v v' : Syms) (d : List DCode) : (d.flatMap (encD v)).length = (d.flatMap (encD v')).length := by
  induction d with
  | nil => rfl
  | cons d ds ih => rw [List.flatMap_cons, List.flatMap_cons, List.length_append, List.length_append, ih, encD_length v v']

theorem encEmit_length : ∀ (n : Nat) (a b : List B), a.length = n → b.length = n → (encEmit a).length = (encEmit b).length := by
  intro n
  induction n using Nat.strongRecOn with
  | _ n ih =>
    intro a b ha hb
    rw [encEmit.eq_def a, encEmit.eq_def b, ha, hb]
    split
    · cases a with
      | nil => cases b with
        | nil => rfl
        | cons _ _ => simp at ha hb; omega
      | cons _ _ => cases b with
        | nil => simp at ha hb; omega
        | cons _ _ => simp; simp at ha hb; omega
    · have := ih (n - 28) (by omega) (a.drop 28) (b.drop 28) (by simp [ha]) (by simp [hb])
      simp only [List.length_cons, List.length_append, List.length_take, ha, hb, this]

theorem encRet_length (a b : List B) (h : a.length = b.length) : (encRet a).length = (encRet b).length := by
  rw [encRet, encRet]
  cases ha : a.getLast? with
  | none =>
    rw [List.getLast?_eq_none_iff] at ha
    subst ha
    have : b = [] := List.length_eq_zero_iff.mp h.symm
    subst this; rfl
  | some x =>
    cases hb : b.getLast? with
    | none =>
      rw [List.getLast?_eq_none_iff] at hb
      subst hb
      have : a = [] := List.length_eq_zero_iff.mp h
      subst this; cases ha
    | some y =>
      have := encEmit_length _ a.dropLast b.dropLast rfl (by simp [h])
      simp [this]

theorem encCode_length (v v' : Syms) (exts : List Act) (sl : SMs) (c : PCode) : (encCode v exts sl c).length = (encCode v' exts sl c).length := by
  cases c with
  | lit s => simp [encCode]
  | emit d => exact encEmit_length _ _ _ rfl (flat_length v' v d)
  | emitRet d => exact encRet_length _ _ (flat_length v v' d)
  | ext a => rfl
  | call t => rfl
  | ret => rfl

theorem encLine_length (v v' : Syms) (exts : List Act) (sl : SMs) (l : List PCode) : (encLine v exts sl l).length = (encLine v' exts sl l).length := by
  induction l with
  | nil => rfl
  | cons c cs ih =>
    rw [encLine] at ih ⊢
    rw [encLine] at ih ⊢
    rw [List.flatMap_cons, List.flatMap_cons, List.length_append, List.length_append, ih, encCode_length v v']

theorem bodyOk_any (v v' : Syms) (exts : List Act) (sl : SMs) (c : PCode) : bodyOk v exts sl c = bodyOk v' exts sl c := by
  cases c with
  | emit d =>
    rw [bodyOk, bodyOk]
    have := flat_length v v' d
    cases h : d.flatMap (encD v) with
    | nil => rw [h] at this; cases h' : d.flatMap (encD v') with
      | nil => rfl
      | cons _ _ => rw [h'] at this; simp at this
    | cons _ _ => rw [h] at this; cases h' : d.flatMap (encD v') with
      | nil => rw [h'] at this; simp at this
      | cons _ _ => simp
  | _ => rfl

theorem lineOk_any (v v' : Syms) (exts : List Act) (sl : SMs) : ∀ l : List PCode, lineOk v exts sl l = lineOk v' exts sl l
  | [] => rfl
  | c :: cs => by
    have ih := lineOk_any v v' exts sl cs
    have hb := bodyOk_any v v' exts sl c
    cases cs with
    | nil => cases c <;> first | rfl | (simp only [lineOk, hb])
    | cons d ds =>
      have e : ∀ v, lineOk v exts sl (c :: d :: ds) = (bodyOk v exts sl c && lineOk v exts sl (d :: ds)) := by intro v; cases c <;> rfl
      rw [e, e, hb, ih]

theorem tableOk_any (v v' : Syms) (exts : List Act) (sl : SMs) (T : SM) : tableOk v exts sl T = tableOk v' exts sl T := by
  rw [tableOk, tableOk]
  have : (fun l => lineOk v exts sl l && decide ((encLine v exts sl l).length ≤ 256)) = fun l => lineOk v' exts sl l && decide ((encLine v' exts sl l).length ≤ 256) := by
    funext l
    rw [lineOk_any v v', encLine_length v v']
  rw [this]

/-- Any values of the symbols. -/
def syms0 : Syms := ⟨fun _ => 0, fun _ => 0, fun _ => 0⟩

/-- The bytes that the interpreter reads as an element of the tables: one byte, or a word with its low byte first (`word`, as in the routines of the interpreter). -/
def Reads (v : Syms) : DCode → List B → Prop
  | .wordSym s, [l, h] => Rt.word l h = v.word s
  | .wordVal n, [l, h] => Rt.word l h = BitVec.ofNat 16 n
  | .byteVal n, [b] => b.toNat = n % 256
  | .byteSym s, [b] => b = v.byte s
  | .token t, [b] => b = v.tok t
  | _, _ => False

/-- What the tables emit is read by the interpreter as the values written in the syntax files. -/
theorem C44_values (v : Syms) (d : DCode) : Reads v d (encD v d) := by
  cases d with
  | wordSym s =>
    show Rt.word _ _ = _
    apply BitVec.eq_of_toNat_eq
    rw [word_toNat]
    have := (v.word s).isLt
    simp only [lo, hi, BitVec.toNat_setWidth, BitVec.toNat_ushiftRight, Nat.shiftRight_eq_div_pow]; omega
  | wordVal n =>
    show Rt.word _ _ = _
    apply BitVec.eq_of_toNat_eq
    rw [word_toNat]
    simp only [BitVec.toNat_ofNat]; omega
  | byteVal n => show (BitVec.ofNat 8 (n % 256)).toNat = _; rw [BitVec.toNat_ofNat]; omega
  | byteSym s => rfl
  | token t => rfl

example : Reads syms0 (.wordVal 0x1234) [0x34, 0x12] ∧ ¬ Reads syms0 (.wordVal 0x1234) [0x12, 0x34] := by
  constructor
  · exact C44_values syms0 (.wordVal 0x1234)
  · intro h; exact absurd h (by show ¬ Rt.word 0x12 0x34 = _; decide)

/-- The tables of the floating point compiler have all that the parser needs, and they are not too many. -/
theorem C44_tables_fp (v : Syms) : (∀ T ∈ NativeFp.opt, tableOk v NativeFp.exts NativeFp.opt T = true) ∧ NativeFp.exts.length + NativeFp.opt.length ≤ 128 := by
  have h : (NativeFp.opt.all fun T => tableOk syms0 NativeFp.exts NativeFp.opt T) = true := by decide +kernel
  refine ⟨fun T hT => ?_, by decide +kernel⟩
  rw [tableOk_any v syms0]
  exact List.all_eq_true.mp h T hT

/-- And those of the integer compiler. -/
theorem C44_tables_int (v : Syms) : (∀ T ∈ NativeInt.opt, tableOk v NativeInt.exts NativeInt.opt T = true) ∧ NativeInt.exts.length + NativeInt.opt.length ≤ 128 := by
  have h : (NativeInt.opt.all fun T => tableOk syms0 NativeInt.exts NativeInt.opt T) = true := by decide +kernel
  refine ⟨fun T hT => ?_, by decide +kernel⟩
  rw [tableOk_any v syms0]
  exact List.all_eq_true.mp h T hT

section
variable {ρ : Type} {L : Lay} {E : Mem ρ} {txt : Str} {X : W → M → Option M → Prop} {act : Act → St B ρ → Syn.Out B ρ}

/-- The floating point compiler accepts a statement, with a result, if the grammar in the syntax files does: the tables before the optimizer. -/
theorem C44_native_fp (hX : Functional X) (hsl : L.sl = NativeFp.opt) (hf : L.first = NativeFp.n_PARSE_START) (G : Good L E txt) (A : Acts L E X act) (s : St B ρ) (m : M) (ha : m.a = 0) (h : Rel E s m.pv)
    (hst : stkSize m.stk + 2 < 256) :
    (∀ m', PRun L X (L.at engCode.parse_start) m (L.at engCode.pdone) m' →
      ∃ s', Parses (natConf L.v txt act) NativeFp.tables NativeFp.n_PARSE_START s (.ok s') ∧ Rel E s' m'.pv ∧ m'.stk = m.stk) ∧
    (∀ m', PRun L X (L.at engCode.parse_start) m (L.at engCode.set_parse_error) m' → ∃ s', Parses (natConf L.v txt act) NativeFp.tables NativeFp.n_PARSE_START s (.fail s')) ∧
    ∀ r, Parses (natConf L.v txt act) NativeFp.tables NativeFp.n_PARSE_START s r →
      Ends L E X m r ∨ ∃ m', PRun L X (L.at engCode.parse_start) m (L.at engCode.too_long) m' ∧ 239 < stkSize m'.stk := by
  have e : ∀ r, Parses (natConf L.v txt act) L.sl L.first s r ↔ Parses (natConf L.v txt act) NativeFp.tables NativeFp.n_PARSE_START s r := by
    intro r; rw [hsl, hf]; exact C33_native_fp.2 _ s r
  refine ⟨fun m' hm => ?_, fun m' hm => ?_, fun r hr => C44_parses G A s m ha h hst r ((e r).mpr hr)⟩
  · obtain ⟨s', h1, h2⟩ := C44_accepts hX G A s m m' ha h hst hm
    exact ⟨s', (e _).mp h1, h2⟩
  · obtain ⟨s', h1⟩ := C44_rejects hX G A s m m' ha h hst hm
    exact ⟨s', (e _).mp h1⟩

/-- The same for the integer compiler. -/
theorem C44_native_int (hX : Functional X) (hsl : L.sl = NativeInt.opt) (hf : L.first = NativeInt.n_PARSE_START) (G : Good L E txt) (A : Acts L E X act) (s : St B ρ) (m : M) (ha : m.a = 0)
    (h : Rel E s m.pv) (hst : stkSize m.stk + 2 < 256) :
    (∀ m', PRun L X (L.at engCode.parse_start) m (L.at engCode.pdone) m' →
      ∃ s', Parses (natConf L.v txt act) NativeInt.tables NativeInt.n_PARSE_START s (.ok s') ∧ Rel E s' m'.pv ∧ m'.stk = m.stk) ∧
    (∀ m', PRun L X (L.at engCode.parse_start) m (L.at engCode.set_parse_error) m' → ∃ s', Parses (natConf L.v txt act) NativeInt.tables NativeInt.n_PARSE_START s (.fail s')) ∧
    ∀ r, Parses (natConf L.v txt act) NativeInt.tables NativeInt.n_PARSE_START s r →
      Ends L E X m r ∨ ∃ m', PRun L X (L.at engCode.parse_start) m (L.at engCode.too_long) m' ∧ 239 < stkSize m'.stk := by
  have e : ∀ r, Parses (natConf L.v txt act) L.sl L.first s r ↔ Parses (natConf L.v txt act) NativeInt.tables NativeInt.n_PARSE_START s r := by
    intro r; rw [hsl, hf]; exact C33_native_int.2 _ s r
  refine ⟨fun m' hm => ?_, fun m' hm => ?_, fun r hr => C44_parses G A s m ha h hst r ((e r).mpr hr)⟩
  · obtain ⟨s', h1, h2⟩ := C44_accepts hX G A s m m' ha h hst hm
    exact ⟨s', (e _).mp h1, h2⟩
  · obtain ⟨s', h1⟩ := C44_rejects hX G A s m m' ha h hst hm
    exact ⟨s', (e _).mp h1⟩

end

/-! ## Example -/

/-- `PARSE_START: S E_EOL`; `S: "." E_REM`, `"CLs" emit 7` or `"P" N emit 9`; `N: "(" N ")"`, `"1" emit 1` or `emit 0`. -/
def exSl : SMs := [⟨0, [[.call 1, .ext .EOL, .ret]], false⟩,
  ⟨1, [[.lit [46], .ext .REM, .ret], [.lit [67, 76, 115], .emitRet [.byteVal 7]], [.lit [80], .call 2, .emit [.byteVal 9], .ret]], false⟩,
  ⟨2, [[.lit [40], .call 2, .lit [41], .ret], [.lit [49], .emitRet [.byteVal 1]], [.emitRet [.byteVal 0]]], true⟩]

def exLay : Lay where
  v := syms0
  exts := [.EOL, .REM]
  sl := exSl
  first := 0
  tab := 0x2080
  addr := fun t => 0x2000 + 0x20 * BitVec.ofNat 16 t
  act := fun a => if a = .EOL then 0x5000 else 0x6000
  err := 42

/-- The line `P ( (1)):CLS` in the buffer. -/
def exTxt : Str := [80, 32, 40, 32, 40, 49, 41, 41, 58, 67, 76, 83, 155] ++ List.replicate 243 0

def exPad (n : Nat) (l : List B) : List B := l ++ List.replicate (n - l.length) 0

def exImage : List B := (exSl.map fun T => exPad 32 (encTable syms0 exLay.exts exSl T)).flatten ++ List.replicate 32 0 ++
  [0xff, 0x4f, 0xff, 0x5f, 0xff, 0x1f, 0x1f, 0x20, 0x3f, 0x20]

def exMem (w : W) : B :=
  if w.toNat < 0x680 then BitVec.ofNat 8 (exTxt[w.toNat - 0x580]?.getD 0) else exImage[w.toNat - 0x2000]?.getD 0

def exF (w : W) : Bool := (decide (0x580 ≤ w.toNat) && decide (w.toNat < 0x680)) || (decide (0x2000 ≤ w.toNat) && decide (w.toNat < 0x2100))

def exE : Mem Unit := { F := fun w => exF w = true, mem := exMem, prog := 0x3000, ib := 0x580, e := 12, Rest := fun _ _ => True }

instance atDec (f : W → Bool) (mem : W → B) : ∀ (p : W) (bs : List B), Decidable (At (fun w => f w = true) mem p bs)
  | _, [] => .isTrue trivial
  | p, b :: bs =>
    have := atDec f mem (p + 1) bs
    inferInstanceAs (Decidable (f (p + 1) = true ∧ 256 ≤ (p + 1).toNat ∧ mem (p + 1) = b ∧ At (fun w => f w = true) mem (p + 1) bs))

theorem exWhole : Whole exE exTxt where
  text := by
    have : ∀ i, i < 256 → exF (0x580 + BitVec.ofNat 16 i) = true ∧ exTxt[i]? = some (exMem (0x580 + BitVec.ofNat 16 i)).toNat := by decide +kernel
    exact this
  last := by
    have : ∀ i, i < 256 → exTxt[i]? = some 155 → i ≤ 12 := by decide +kernel
    exact this

theorem exGood : Good exLay exE exTxt where
  text := fun i hi => exWhole.text i (by have : i ≤ 12 := hi; omega)
  elt := by decide
  eol := by decide +kernel
  wf := by
    have : ∀ T ∈ exSl, tableOk syms0 exLay.exts exSl T = true := by decide +kernel
    exact this
  tables := by
    have : ∀ T ∈ exSl, At (fun w => exF w = true) exMem (exLay.addr T.name - 1) (encTable syms0 exLay.exts exSl T) := by decide +kernel
    exact this
  extAddr := by
    have : ∀ a ∈ exLay.exts, exF (exLay.tab + BitVec.ofNat 16 (2 * extNum exLay.exts a)) = true ∧ exF (exLay.tab + 1 + BitVec.ofNat 16 (2 * extNum exLay.exts a)) = true ∧
      exMem (exLay.tab + BitVec.ofNat 16 (2 * extNum exLay.exts a)) = lo (exLay.act a - 1) ∧ exMem (exLay.tab + 1 + BitVec.ofNat 16 (2 * extNum exLay.exts a)) = hi (exLay.act a - 1) := by
      decide +kernel
    exact this
  tabAddr := by
    have : ∀ T ∈ exSl, exF (exLay.tab + BitVec.ofNat 16 (2 * tabNum exLay.exts exSl T.name)) = true ∧ exF (exLay.tab + 1 + BitVec.ofNat 16 (2 * tabNum exLay.exts exSl T.name)) = true ∧
      exMem (exLay.tab + BitVec.ofNat 16 (2 * tabNum exLay.exts exSl T.name)) = lo (exLay.addr T.name - 1) ∧
      exMem (exLay.tab + 1 + BitVec.ofNat 16 (2 * tabNum exLay.exts exSl T.name)) = hi (exLay.addr T.name - 1) := by
      decide +kernel
    exact this
  count := by decide
  start := by decide
  off := by
    intro w hw i hi e
    have hw' : exF w = true := hw
    have e' : w = 0x3000#16 + BitVec.ofNat 16 i := e
    subst e'
    have : (0x3000#16 + BitVec.ofNat 16 i).toNat = 0x3000 + i := by simp [BitVec.toNat_add]; omega
    simp [exF, this] at hw'
    omega
  free := fun _ _ _ _ _ _ _ _ _ _ => trivial

/-- Any contents of the cells. -/
def exZp : Zp := ⟨1, 2, 3, 4, 5, 6, 7, 8, 9, 10, 11, 12, 13, 14, 15, 16, 17, 18, 19, 20, 21, 22, 23, 24, 25, 0, 0, 0, 0, 0, 0, 0, 0, 0, 0, 0, 0, 0, 0, 0, 0, 0, 0, 0⟩

/-- The machine before the statement. -/
def exM : M :=
  { a := 0, x := 1, y := 2, c := true, z := false, n := false, v := false, stk := [.byte 1, .byte 2, .byte 3],
    zp := { exZp with inb := 0x80, inbh := 0x05, cix := 0, opos := 0, prgp := 0, prgph := 0x30, pptr := 9, pptrh := 9, bmax := 3 },
    sl := fun _ => 0, sh := fun _ => 0, ram := exMem }

def exS : St B Unit := { pos := 0, opos := 0, buf := fun i => exMem (0x3000 + BitVec.ofNat 16 i), rest := () }

theorem exRel : Rel exE exS exM.pv where
  pos := rfl
  ple := Nat.zero_le _
  op := rfl
  buf := fun _ _ => rfl
  fix := fun _ _ => rfl
  prog := by decide
  inb := by decide
  rest := trivial

/-- The hypotheses are met: the parser accepts the first statement, with the code of the routines too, and it emits 1 and 9. -/
example : ∃ m', PRun exLay (codeX exLay) (exLay.at engCode.parse_start) exM (exLay.at engCode.pdone) m' ∧ m'.zp.cix = 8 ∧ m'.zp.opos = 2 ∧ m'.ram 0x3000 = 1 ∧ m'.ram 0x3001 = 9 ∧ m'.stk = exM.stk := by
  have A := natActs exGood exWhole (by decide)
  have hr : (match table (natConf syms0 exTxt (natAct exTxt)) exSl 5 0 exS with
      | some (.ok s) => s.pos == 8 && s.opos == 2 && s.buf 0 == 1 && s.buf 1 == 9
      | _ => false) = true := by decide +kernel
  split at hr
  · rename_i s hs
    simp only [Bool.and_eq_true, beq_iff_eq] at hr
    obtain ⟨m', r, h, hst⟩ := C44_depth exGood A 5 exS exM rfl exRel (by decide) (.ok s) hs
    refine ⟨m', r, BitVec.eq_of_toNat_eq (h.pos.trans hr.1.1.1), BitVec.eq_of_toNat_eq (h.op.trans hr.1.1.2), (h.buf 0 (by decide)).trans hr.1.2, (h.buf 1 (by decide)).trans hr.2, hst⟩
  · exact absurd hr nofun

/-- The routines have one result. -/
example : Functional (codeX exLay) := codeX_functional (by decide)

/-! ## A memory for any tables -/

section
variable (exts : List Act) (sl : SMs)

/-- The address of a table: they are one after the other from 0x2000. -/
def mkAddr (t : Nat) : W := 0x2000#16 + BitVec.ofNat 16 ((sl.takeWhile fun T => T.name != t).flatMap (encTable syms0 exts sl)).length

/-- The addresses of the routines. -/
def mkAct (a : Act) : W := 0x5000#16 + 16 * BitVec.ofNat 16 (extNum exts a)

/-- The table of addresses at 0x1000. -/
def mkTab : List B := (exts.flatMap fun a => [lo (mkAct exts a - 1), hi (mkAct exts a - 1)]) ++ (sl.map SM.name).flatMap fun t => [lo (mkAddr exts sl t - 1), hi (mkAddr exts sl t - 1)]

/-- The memory: the line at 0x580, the addresses at 0x1000 and the tables at 0x2000. -/
def mkMem (txt : Str) (w : W) : B :=
  if w.toNat < 0x680 then BitVec.ofNat 8 (txt[w.toNat - 0x580]?.getD 0)
  else if w.toNat < 0x2000 then (mkTab exts sl)[w.toNat - 0x1000]?.getD 0
  else (sl.flatMap (encTable syms0 exts sl))[w.toNat - 0x2000]?.getD 0

def mkF (w : W) : Prop := (0x580 ≤ w.toNat ∧ w.toNat < 0x680) ∨ (0x1000 ≤ w.toNat ∧ w.toNat < 0x1100) ∨ (0x2000 ≤ w.toNat ∧ w.toNat < 0x5000)

def mkE (txt : Str) (e : Nat) : Mem Unit := { F := mkF, mem := mkMem exts sl txt, prog := 0x6000#16, ib := 0x580#16, e := e, Rest := fun _ _ => True }

def mkLay (first : Nat) : Lay where
  v := syms0
  exts := exts
  sl := sl
  first := first
  tab := 0x1000#16
  addr := mkAddr exts sl
  act := mkAct exts
  err := 42

theorem At.of {F : W → Prop} {mem : W → B} : ∀ (bs : List B) (p : W), (∀ i (h : i < bs.length), F (p + 1 + BitVec.ofNat 16 i) ∧ 256 ≤ (p + 1 + BitVec.ofNat 16 i).toNat ∧
    mem (p + 1 + BitVec.ofNat 16 i) = bs[i]) → At F mem p bs
  | [], _, _ => trivial
  | b :: bs, p, h => by
    have h0 := h 0 (by simp)
    rw [show p + 1 + BitVec.ofNat 16 0 = p + 1 by simp] at h0
    refine ⟨h0.1, h0.2.1, h0.2.2, At.of bs (p + 1) fun i hi => ?_⟩
    have := h (i + 1) (by simp; omega)
    rw [show p + 1 + BitVec.ofNat 16 (i + 1) = p + 1 + 1 + BitVec.ofNat 16 i by
      rw [BitVec.ofNat_add, BitVec.add_comm (BitVec.ofNat 16 i), ← BitVec.add_assoc]; rfl] at this
    exact this

theorem pairs_get {α : Type} (f g : α → B) : ∀ (l : List α) (k : Nat) (x : α), l[k]? = some x → (l.flatMap fun x => [f x, g x])[2 * k]? = some (f x) ∧ (l.flatMap fun x => [f x, g x])[2 * k + 1]? = some (g x)
  | [], _, _, h => by simp at h
  | y :: ys, 0, x, h => by simp at h; subst h; simp
  | y :: ys, k + 1, x, h => by
    have := pairs_get f g ys k x (by simpa using h)
    rw [List.flatMap_cons]
    exact ⟨by rw [show 2 * (k + 1) = 2 * k + 1 + 1 by omega]; simpa using this.1, by rw [show 2 * (k + 1) + 1 = 2 * k + 1 + 1 + 1 by omega]; simpa using this.2⟩

theorem pairs_length {α : Type} (f g : α → B) (l : List α) : (l.flatMap fun x => [f x, g x]).length = 2 * l.length := by
  induction l with
  | nil => rfl
  | cons x xs ih => rw [List.flatMap_cons, List.length_append, ih]; simp; omega

theorem get_idxOf {α : Type} [BEq α] [LawfulBEq α] (l : List α) (a : α) (h : a ∈ l) : l[l.idxOf a]? = some a := by
  have := List.idxOf_lt_length_of_mem h
  rw [List.getElem?_eq_getElem this]
  simp

theorem toNat_off (b : W) (i n : Nat) (hb : b.toNat + n ≤ 65536) (hi : i < n) : (b + BitVec.ofNat 16 i).toNat = b.toNat + i := by
  simp [BitVec.toNat_add]; omega

theorem split_at (sl : SMs) (T : SM) (hn : (sl.map SM.name).Nodup) (hT : T ∈ sl) : ∃ post, sl = (sl.takeWhile fun x => x.name != T.name) ++ T :: post := by
  induction sl with
  | nil => cases hT
  | cons x xs ih =>
    rw [List.map_cons, List.nodup_cons] at hn
    by_cases e : x.name = T.name
    · have : x = T := by
        cases hT with
        | head => rfl
        | tail _ h => exact absurd (List.mem_map.mpr ⟨T, h, e.symm⟩) hn.1
      subst this
      exact ⟨xs, by simp⟩
    · have h : T ∈ xs := by
        cases hT with
        | head => exact absurd rfl e
        | tail _ h => exact h
      obtain ⟨post, hp⟩ := ih hn.2 h
      refine ⟨post, ?_⟩
      rw [List.takeWhile_cons, if_pos (by simpa using e), List.cons_append, ← hp]

/-- With any tables and any line there is a memory with them. -/
theorem mkGood (txt : Str) (e first : Nat) (hl : txt.length = 256) (hb : ∀ c ∈ txt, c < 256) (he : e ≤ 255) (heol : txt[e]? = some 155) (wf : ∀ T ∈ sl, tableOk syms0 exts sl T = true)
    (hn : (sl.map SM.name).Nodup) (hc : exts.length + sl.length ≤ 128) (hf : first ∈ sl.map SM.name) (hs : (sl.flatMap (encTable syms0 exts sl)).length ≤ 0x3000) :
    Good (mkLay exts sl first) (mkE exts sl txt e) txt ∧
      ∀ i, i < 256 → (mkE exts sl txt e).F ((mkE exts sl txt e).ib + BitVec.ofNat 16 i) ∧ txt[i]? = some ((mkE exts sl txt e).mem ((mkE exts sl txt e).ib + BitVec.ofNat 16 i)).toNat := by
  have htext : ∀ i, i < 256 → mkF (0x580#16 + BitVec.ofNat 16 i) ∧ txt[i]? = some (mkMem exts sl txt (0x580#16 + BitVec.ofNat 16 i)).toNat := by
    intro i hi
    have hw : (0x580#16 + BitVec.ofNat 16 i).toNat = 0x580 + i := toNat_off 0x580#16 i 256 (by decide) hi
    refine ⟨.inl ⟨by omega, by omega⟩, ?_⟩
    have hli : i < txt.length := by omega
    rw [mkMem, hw, if_pos (by omega), Nat.add_sub_cancel_left, List.getElem?_eq_getElem hli]
    have := hb txt[i] (List.getElem_mem hli)
    rw [Option.getD_some, BitVec.toNat_ofNat, Nat.mod_eq_of_lt this]
  have htab : ∀ j, j < 256 → mkF (0x1000#16 + BitVec.ofNat 16 j) ∧ mkMem exts sl txt (0x1000#16 + BitVec.ofNat 16 j) = (mkTab exts sl)[j]?.getD 0 := by
    intro j hj
    have hw : (0x1000#16 + BitVec.ofNat 16 j).toNat = 0x1000 + j := toNat_off 0x1000#16 j 256 (by decide) hj
    refine ⟨.inr (.inl ⟨by omega, by omega⟩), ?_⟩
    rw [mkMem, hw, if_neg (by omega), if_pos (by omega), Nat.add_sub_cancel_left]
  have e1 : ∀ j : Nat, (0x1000#16 + 1 + BitVec.ofNat 16 j : W) = 0x1000#16 + BitVec.ofNat 16 (j + 1) := by
    intro j
    rw [BitVec.ofNat_add, BitVec.add_comm (BitVec.ofNat 16 j), ← BitVec.add_assoc]; rfl
  refine ⟨⟨fun i hi => htext i (by have : i ≤ e := hi; omega), he, ?_, wf, ?_, ?_, ?_, hc, hf, ?_, fun _ _ _ _ _ _ _ _ _ _ => trivial⟩, htext⟩
  · have := (htext e (by omega)).2
    rw [heol] at this
    injection this with this
    exact BitVec.eq_of_toNat_eq this.symm
  · intro T hT
    apply At.of
    intro i hi
    obtain ⟨post, hp⟩ := split_at sl T hn hT
    generalize hpre : (sl.takeWhile fun x => x.name != T.name) = pre at hp
    have hlen : (sl.flatMap (encTable syms0 exts sl)) = pre.flatMap (encTable syms0 exts sl) ++ (encTable syms0 exts sl T ++ post.flatMap (encTable syms0 exts sl)) := by
      rw [← List.flatMap_cons, ← List.flatMap_append, ← hp]
    have hll := congrArg List.length hlen
    rw [List.length_append, List.length_append] at hll
    have hi' : i < (encTable syms0 exts sl T).length := hi
    have hw : (mkLay exts sl first).addr T.name - 1 + 1 + BitVec.ofNat 16 i = 0x2000#16 + BitVec.ofNat 16 ((pre.flatMap (encTable syms0 exts sl)).length + i) := by
      show mkAddr exts sl T.name - 1 + 1 + _ = _
      rw [BitVec.sub_add_cancel, mkAddr, hpre, ofNat_add16]
    rw [hw]
    have hn : (0x2000#16 + BitVec.ofNat 16 ((pre.flatMap (encTable syms0 exts sl)).length + i)).toNat = 0x2000 + ((pre.flatMap (encTable syms0 exts sl)).length + i) :=
      toNat_off 0x2000#16 _ 0x3000 (by decide) (by omega)
    refine ⟨.inr (.inr ⟨by omega, by omega⟩), by rw [hn]; omega, ?_⟩
    show mkMem exts sl txt _ = (encTable syms0 exts sl T)[i]
    rw [mkMem, hn, if_neg (by omega), if_neg (by omega), Nat.add_sub_cancel_left, hlen, List.getElem?_append_right (by omega), Nat.add_sub_cancel_left,
      List.getElem?_append_left hi', List.getElem?_eq_getElem hi', Option.getD_some]
  · intro a ha
    have hk := List.idxOf_lt_length_of_mem ha
    have hk' : extNum exts a < exts.length := hk
    have hp := pairs_get (fun a => lo (mkAct exts a - 1)) (fun a => hi (mkAct exts a - 1)) exts (extNum exts a) a (get_idxOf exts a ha)
    have hlen := pairs_length (fun a => lo (mkAct exts a - 1)) (fun a => hi (mkAct exts a - 1)) exts
    have t1 := htab (2 * extNum exts a) (by omega)
    have t2 := htab (2 * extNum exts a + 1) (by omega)
    refine ⟨t1.1, ?_, ?_, ?_⟩
    · show mkF (0x1000#16 + 1 + _); rw [e1]; exact t2.1
    · show mkMem exts sl txt (0x1000#16 + _) = _
      rw [show (mkLay exts sl first).exts = exts from rfl, t1.2, mkTab, List.getElem?_append_left (by omega), hp.1]; rfl
    · show mkMem exts sl txt (0x1000#16 + 1 + _) = _
      rw [show (mkLay exts sl first).exts = exts from rfl, e1, t2.2, mkTab, List.getElem?_append_left (by omega), hp.2]; rfl
  · intro T hT
    have ha : T.name ∈ sl.map SM.name := List.mem_map.mpr ⟨T, hT, rfl⟩
    have hk := List.idxOf_lt_length_of_mem ha
    rw [List.length_map] at hk
    have hp := pairs_get (fun t => lo (mkAddr exts sl t - 1)) (fun t => hi (mkAddr exts sl t - 1)) (sl.map SM.name) _ T.name (get_idxOf _ _ ha)
    have hlen := pairs_length (fun a => lo (mkAct exts a - 1)) (fun a => hi (mkAct exts a - 1)) exts
    have t1 := htab (2 * tabNum exts sl T.name) (by rw [tabNum]; omega)
    have t2 := htab (2 * tabNum exts sl T.name + 1) (by rw [tabNum]; omega)
    refine ⟨t1.1, ?_, ?_, ?_⟩
    · show mkF (0x1000#16 + 1 + _); rw [e1]; exact t2.1
    · show mkMem exts sl txt (0x1000#16 + BitVec.ofNat 16 (2 * tabNum exts sl T.name)) = lo (mkAddr exts sl T.name - 1)
      rw [t1.2, mkTab, List.getElem?_append_right (by rw [hlen, tabNum]; omega), hlen, show 2 * tabNum exts sl T.name - 2 * exts.length = 2 * (sl.map SM.name).idxOf T.name by rw [tabNum]; omega, hp.1]
      rfl
    · show mkMem exts sl txt (0x1000#16 + 1 + BitVec.ofNat 16 (2 * tabNum exts sl T.name)) = hi (mkAddr exts sl T.name - 1)
      rw [e1, t2.2, mkTab, List.getElem?_append_right (by rw [hlen, tabNum]; omega), hlen,
        show 2 * tabNum exts sl T.name + 1 - 2 * exts.length = 2 * (sl.map SM.name).idxOf T.name + 1 by rw [tabNum]; omega, hp.2]
      rfl
  · intro w hw i hi h
    have hw' : mkF w := hw
    have h' : w = 0x6000#16 + BitVec.ofNat 16 i := h
    subst h'
    have := toNat_off 0x6000#16 i 256 (by decide) hi
    rw [mkF, this] at hw'
    have : (0x6000#16).toNat = 0x6000 := rfl
    omega

end

/-- The line `PRI. :CLS` in the buffer. -/
def niTxt : Str := [80, 82, 73, 46, 32, 58, 67, 76, 83, 155] ++ List.replicate 246 0

/-- The tables of the integer compiler in memory. -/
def niLay : Lay := mkLay NativeInt.exts NativeInt.opt NativeInt.n_PARSE_START

def niE : Mem Unit := mkE NativeInt.exts NativeInt.opt niTxt 9

theorem niSize : (NativeInt.opt.flatMap (encTable syms0 NativeInt.exts NativeInt.opt)).length ≤ 0x3000 := by decide +kernel
theorem niNodup : (NativeInt.opt.map SM.name).Nodup := by decide +kernel

theorem niMade : Good niLay niE niTxt ∧ ∀ i, i < 256 → niE.F (niE.ib + BitVec.ofNat 16 i) ∧ niTxt[i]? = some (niE.mem (niE.ib + BitVec.ofNat 16 i)).toNat :=
  mkGood NativeInt.exts NativeInt.opt niTxt 9 NativeInt.n_PARSE_START (by decide +kernel) (by decide +kernel) (by decide) (by decide +kernel) (C44_tables_int syms0).1 niNodup (C44_tables_int syms0).2
    (by decide +kernel) niSize

theorem niWhole : Whole niE niTxt where
  text := niMade.2
  last := by
    have : ∀ i, i < 256 → niTxt[i]? = some 155 → i ≤ 9 := by decide +kernel
    exact this

/-- `E_EOL` and `E_REM` are the code, the other routines always fail. -/
def niX (w : W) (m : M) (r : Option M) : Prop := codeX niLay w m r ∨ ∃ a ∈ niLay.exts, niLay.act a = w ∧ routine a = none ∧ r = some { m with c := true }

def niActs (a : Act) (s : St B Unit) : Syn.Out B Unit := if (routine a).isSome then natAct niTxt a s else .fail s

theorem niOnce : ∀ a ∈ niLay.exts, ∀ b ∈ niLay.exts, niLay.act a = niLay.act b → a = b := by decide +kernel

theorem niX_functional : Functional niX := by
  intro w m r r' h h'
  rcases h with h | ⟨a, ha, hw, hr, rfl⟩ <;> rcases h' with h' | ⟨b, hb, hw', hr', rfl⟩
  · exact codeX_functional niOnce w m r r' h h'
  · obtain ⟨a, ha, rfl, P, k, m1, e1, -⟩ := h
    rw [niOnce b hb a ha hw', e1] at hr'; cases hr'
  · obtain ⟨b, hb, rfl, P, k, m1, e1, -⟩ := h'
    rw [niOnce a ha b hb hw, e1] at hr; cases hr
  · rfl

theorem niA : Acts niLay niE niX niActs := by
  intro a ha s m h _
  rw [niActs]
  by_cases hr : (routine a).isSome = true
  · rw [if_pos hr]
    have hc : a = .EOL ∨ a = .REM := by cases a <;> simp [routine] at hr ⊢
    have G := niMade.1
    rcases hc with rfl | rfl
    · rw [natAct]
      have key := eol_calls G niWhole s m h
      cases hx : natEol niTxt s with
      | ok s' => rw [hx] at key; obtain ⟨m', c, x⟩ := key; exact ⟨m', .inl ⟨_, ha, rfl, _, _, m', rfl, rfl, c⟩, x⟩
      | fail s' => rw [hx] at key; obtain ⟨m', c, x⟩ := key; exact ⟨m', .inl ⟨_, ha, rfl, _, _, m', rfl, rfl, c⟩, x⟩
      | stop => rw [hx] at key; exact key.elim
    · obtain ⟨m', c, h1, h2, h3, h4⟩ := rem_calls G niWhole s m h
      exact ⟨m', .inl ⟨_, ha, rfl, _, _, m', rfl, rfl, c⟩, h2, h1, h4, h3⟩
  · rw [if_neg hr]
    exact ⟨{ m with c := true }, .inr ⟨a, ha, rfl, by simpa using hr, rfl⟩, rfl, h, rfl, rfl⟩

/-- The machine before the line. -/
def niM : M :=
  { a := 0, x := 1, y := 2, c := true, z := false, n := false, v := false, stk := [.byte 1, .byte 2, .byte 3],
    zp := { exZp with inb := 0x80, inbh := 0x05, cix := 0, opos := 0, prgp := 0, prgph := 0x60, pptr := 9, pptrh := 9, bmax := 3 },
    sl := fun _ => 0, sh := fun _ => 0, ram := niE.mem }

def niS : St B Unit := { pos := 0, opos := 0, buf := fun i => niE.mem (0x6000 + BitVec.ofNat 16 i), rest := () }

theorem niRel : Rel niE niS niM.pv where
  pos := rfl
  ple := Nat.zero_le _
  op := rfl
  buf := fun _ _ => rfl
  fix := fun _ _ => rfl
  prog := by decide
  inb := by decide
  rest := trivial

theorem niParse : (match table (natConf syms0 niTxt niActs) NativeInt.opt 12 NativeInt.n_PARSE_START niS with
    | some (.ok s) => s.pos == 5 && s.opos == 4 && s.buf 1 == 155
    | _ => false) = true := by decide +kernel

/-- The hypotheses of `C44_native_int` are met: with its tables the parser accepts the first statement of the line, up to the colon, and emits four bytes. By the theorem this is
what the syntax files say. -/
example : ∃ m' s', PRun niLay niX (niLay.at engCode.parse_start) niM (niLay.at engCode.pdone) m' ∧ m'.zp.cix = 5 ∧ m'.zp.opos = 4 ∧ m'.ram 0x6001 = 155 ∧
    Parses (natConf syms0 niTxt niActs) NativeInt.tables NativeInt.n_PARSE_START niS (.ok s') ∧ Rel niE s' m'.pv := by
  have hr := niParse
  split at hr
  · rename_i s hs
    simp only [Bool.and_eq_true, beq_iff_eq] at hr
    obtain ⟨m', r, h, hst⟩ := C44_depth niMade.1 niA 12 niS niM rfl niRel (by decide) (.ok s) hs
    obtain ⟨s', p1, p2, -⟩ := (C44_native_int niX_functional rfl rfl niMade.1 niA niS niM rfl niRel (by decide)).1 m' r
    exact ⟨m', s', r, BitVec.eq_of_toNat_eq (h.pos.trans hr.1.1), BitVec.eq_of_toNat_eq (h.op.trans hr.1.2), (h.buf 1 (by omega)).trans hr.2, p1, p2⟩
  · exact absurd hr nofun

end FB.Eng
