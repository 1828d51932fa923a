import Verif.Eng.Table
/-!
# The routines `E_REM` and `E_EOL` of the native compiler

Transcription of `/repo/src/actions.asm:141-165`, and what it does.
-/
namespace FB.Rt
open Ins Opd

/-- `E_REM`, `E_EOL`: `actions.asm:141-165`, and the ROM routine `SKBLANK` as in `engCode`. -/
def eolCode : Code :=
  asm!["E_REM", ldy (zp .cix), "rem_loop", iny, lda (indY .inb .inbh), cmp (imm 0x9b), Ins.bne "rem_loop", sty (zp .cix), "rem_ok", clc, rts,
   "E_EOL", jsr "parser_skipws", lda (indY .inb .inbh), cmp (imm 0x9b), beq "rem_ok", cmp (imm 0x27), beq "rem_loop", cmp (imm 0x3a), beq "rem_ok",
   "eol_xit", sec, "eol_ret", rts,
   "parser_skipws", ldy (zp .cix), lda (imm 0x20),
   "skb_1", cmp (indY .inb .inbh), Ins.bne "skb_2", iny, Ins.bne "skb_1",
   "skb_2", sty (zp .cix), rts]

code_labels eolCode

/-- A routine that is called at `k` returns in state `m'`. -/
def Calls (P k : Code) (m m' : M) : Prop := Reach P k { m with stk := .ret [] :: m.stk } [] m'

theorem sub_eq0 {a b : B} : a - b = 0#8 ↔ a = b := by bv_omega

section
variable (m : M)

theorem rem_start : ∃ m', Reach eolCode eolCode.E_REM m eolCode.rem_loop m' ∧ m'.pv = m.pv ∧ m'.y = m.pv.ci := by
  refine ⟨?_, ⟨2, ?_⟩, ?_⟩
  rotate_left
  · rt_exec [eolCode.E_REM.eq]
    rfl
  · exact ⟨rfl, rfl⟩

theorem rem_more (h : m.ram (idx (word m.zp.inb m.zp.inbh) (m.y + 1#8)) ≠ 155#8) : ∃ m', Reach eolCode eolCode.rem_loop m eolCode.rem_loop m' ∧ m'.pv = m.pv ∧ m'.y = m.y + 1#8 := by
  refine ⟨?_, ⟨4, ?_⟩, ?_⟩
  rotate_left
  · rt_exec [eolCode.rem_loop.eq, sub_eq0, h]
    rfl
  · exact ⟨rfl, rfl⟩

theorem rem_end (h : m.ram (idx (word m.zp.inb m.zp.inbh) (m.y + 1#8)) = 155#8) {k : Code} {st : List Slot} (hs : m.stk = .ret k :: st) :
    ∃ m', Reach eolCode eolCode.rem_loop m k m' ∧ m'.pv = { m.pv with ci := m.y + 1#8, stk := st } ∧ m'.c = false := by
  refine ⟨?_, ⟨8, ?_⟩, ?_⟩
  rotate_left
  · rt_exec [eolCode.rem_loop.eq, eolCode.rem_ok.eq, sub_eq0, h, hs]
    rfl
  · exact ⟨rfl, rfl⟩

theorem eol_ws_start : ∃ m', Reach eolCode eolCode.E_EOL m eolCode.skb_1 m' ∧ m'.pv = { m.pv with stk := .ret (eolCode.E_EOL.drop 1) :: m.stk } ∧ m'.y = m.pv.ci ∧ m'.a = 32#8 := by
  refine ⟨?_, ⟨4, ?_⟩, ?_⟩
  rotate_left
  · rt_exec [eolCode.E_EOL.eq, eolCode.parser_skipws.eq]
    rfl
  · exact ⟨rfl, rfl, rfl⟩

theorem eol_ws_more (ha : m.a = 32#8) (h : m.pv.ram (idx (word m.pv.z.inb m.pv.z.inbh) m.y) = 32#8) (hz : ¬ m.y + 1#8 = 0#8) :
    ∃ m', Reach eolCode eolCode.skb_1 m eolCode.skb_1 m' ∧ m'.pv = m.pv ∧ m'.y = m.y + 1#8 ∧ m'.a = 32#8 := by
  have h' : m.ram (idx (word m.zp.inb m.zp.inbh) m.y) = 32#8 := h
  refine ⟨?_, ⟨4, ?_⟩, ?_⟩
  rotate_left
  · rt_exec [eolCode.skb_1.eq, ha, h', hz]
    rfl
  · exact ⟨rfl, rfl, rfl⟩

theorem eol_ws_end (ha : m.a = 32#8) (h : m.pv.ram (idx (word m.pv.z.inb m.pv.z.inbh) m.y) ≠ 32#8) {k : Code} {st : List Slot} (hs : m.pv.stk = .ret k :: st) :
    ∃ m', Reach eolCode eolCode.skb_1 m k m' ∧ m'.pv = { m.pv with ci := m.y, stk := st } ∧ m'.y = m.y := by
  have h' : ¬ 32#8 - m.ram (idx (word m.zp.inb m.zp.inbh) m.y) = 0#8 := by
    have : ¬ m.ram (idx (word m.zp.inb m.zp.inbh) m.y) = 32#8 := h
    bv_omega
  have hs' : m.stk = .ret k :: st := hs
  refine ⟨?_, ⟨4, ?_⟩, ?_⟩
  rotate_left
  · rt_exec [eolCode.skb_1.eq, eolCode.skb_2.eq, ha, h', hs']
    rfl
  · exact ⟨rfl, rfl⟩

theorem eol_eol (h : m.ram (idx (word m.zp.inb m.zp.inbh) m.y) = 155#8) {k : Code} {st : List Slot} (hs : m.stk = .ret k :: st) :
    ∃ m', Reach eolCode (eolCode.E_EOL.drop 1) m k m' ∧ m'.pv = { m.pv with stk := st } ∧ m'.c = false := by
  refine ⟨?_, ⟨5, ?_⟩, ?_⟩
  rotate_left
  · rt_exec [eolCode.E_EOL.eq, List.drop, eolCode.rem_ok.eq, sub_eq0, h, hs]
    rfl
  · exact ⟨rfl, rfl⟩

theorem eol_quote (h : m.ram (idx (word m.zp.inb m.zp.inbh) m.y) = 39#8) :
    ∃ m', Reach eolCode (eolCode.E_EOL.drop 1) m eolCode.rem_loop m' ∧ m'.pv = m.pv ∧ m'.y = m.y := by
  refine ⟨?_, ⟨5, ?_⟩, ?_⟩
  rotate_left
  · rt_exec [eolCode.E_EOL.eq, List.drop, eolCode.rem_ok.eq, h]
    rfl
  · exact ⟨rfl, rfl⟩

theorem eol_colon (h : m.ram (idx (word m.zp.inb m.zp.inbh) m.y) = 58#8) {k : Code} {st : List Slot} (hs : m.stk = .ret k :: st) :
    ∃ m', Reach eolCode (eolCode.E_EOL.drop 1) m k m' ∧ m'.pv = { m.pv with stk := st } ∧ m'.c = false := by
  refine ⟨?_, ⟨9, ?_⟩, ?_⟩
  rotate_left
  · rt_exec [eolCode.E_EOL.eq, List.drop, eolCode.rem_ok.eq, h, hs]
    rfl
  · exact ⟨rfl, rfl⟩

theorem eol_no (h1 : m.ram (idx (word m.zp.inb m.zp.inbh) m.y) ≠ 155#8) (h2 : m.ram (idx (word m.zp.inb m.zp.inbh) m.y) ≠ 39#8) (h3 : m.ram (idx (word m.zp.inb m.zp.inbh) m.y) ≠ 58#8)
    {k : Code} {st : List Slot} (hs : m.stk = .ret k :: st) : ∃ m', Reach eolCode (eolCode.E_EOL.drop 1) m k m' ∧ m'.pv = { m.pv with stk := st } ∧ m'.c = true := by
  refine ⟨?_, ⟨11, ?_⟩, ?_⟩
  rotate_left
  · rt_exec [eolCode.E_EOL.eq, List.drop, eolCode.rem_ok.eq, eolCode.eol_xit.eq, eolCode.eol_ret.eq, sub_eq0, h1, h2, h3, hs]
    rfl
  · exact ⟨rfl, rfl⟩

end
end FB.Rt

namespace FB.Eng
open FB.Rt FB.Syn
open FB.Parse (Str Act DCode PCode)

/-- The end of line after position `i`, going back to the start of the buffer (256 bytes) at its end. -/
def remPos (txt : Str) : Nat → Nat → Nat
  | 0, i => i
  | n + 1, i => if txt[(i + 1) % 256]? = some 155 then (i + 1) % 256 else remPos txt n ((i + 1) % 256)

/-- `E_REM`: the next character is not looked at; so in a line with only a dot the end of the line is passed, and an end of line that a longer line left in the buffer, or the same one, is found. -/
def natRem {ρ : Type} (txt : Str) (s : St B ρ) : Syn.Out B ρ := .ok { s with pos := remPos txt 256 s.pos }

/-- `E_EOL`: the end of the line, a comment or a colon. -/
def natEol {ρ : Type} (txt : Str) (s : St B ρ) : Syn.Out B ρ :=
  let s' : St B ρ := { s with pos := s.pos + blanks (fun c => c == 32) (txt.drop s.pos) }
  match txt[s'.pos]? with
  | some c => if c = 155 then .ok s' else if c = 39 then natRem txt s' else if c = 58 then .ok s' else .fail s'
  | none => .fail s'

/-- Inside the line, `E_REM` goes to the end of the line. -/
theorem remPos_line (txt : Str) {i j : Nat} (hij : i < j) (hj : j < 256) (he : txt[j]? = some 155) (hn : ∀ l, i < l → l < j → txt[l]? ≠ some 155) : remPos txt 256 i = j := by
  have : ∀ n, j - i ≤ n → remPos txt n i = j := by
    intro n
    induction n generalizing i with
    | zero => intro h; omega
    | succ n ih =>
      intro h
      rw [remPos, Nat.mod_eq_of_lt (by omega)]
      by_cases e : i + 1 = j
      · rw [e, if_pos he]
      · rw [if_neg (hn _ (by omega) (by omega))]
        exact ih (by omega) (fun l h1 h2 => hn l (by omega) h2) (by omega)
  exact this 256 (by omega)

/-- The buffer of the line has 256 bytes, and `e` is the last end of line in it. -/
structure Whole {ρ : Type} (E : Mem ρ) (txt : Str) : Prop where
  text : ∀ i, i < 256 → E.F (E.ib + BitVec.ofNat 16 i) ∧ txt[i]? = some (E.mem (E.ib + BitVec.ofNat 16 i)).toNat
  last : ∀ i, i < 256 → txt[i]? = some 155 → i ≤ E.e

section
variable {ρ : Type} {L : Lay} {E : Mem ρ} {txt : Str}

theorem rem_sim (G : Good L E txt) (W : Whole E txt) {k : Code} {st : List Slot} (s : St B ρ) : ∀ (n i : Nat) (m : M), (E.e + 255 - i) % 256 < n → i < 256 → Rel E s m.pv → m.y.toNat = i →
    m.stk = .ret k :: st → ∃ m', Reach eolCode eolCode.rem_loop m k m' ∧ Rel E { s with pos := remPos txt n i } m'.pv ∧ m'.c = false ∧ m'.pv.stk = st ∧ m'.pv.pp = m.pv.pp := by
  intro n
  induction n with
  | zero => intro i m h; omega
  | succ n ih =>
    intro i m hn hi h hy hs
    have hj : (i + 1) % 256 < 256 := Nat.mod_lt _ (by decide)
    obtain ⟨hF, ht⟩ := W.text _ hj
    have hy' : (m.y + 1#8).toNat = (i + 1) % 256 := by rw [BitVec.toNat_add, hy]; rfl
    have er : m.ram (idx (word m.zp.inb m.zp.inbh) (m.y + 1#8)) = E.mem (E.ib + BitVec.ofNat 16 ((i + 1) % 256)) := by
      show m.pv.ram (idx (word m.pv.z.inb m.pv.z.inbh) _) = _
      rw [idx, h.inb, hy', h.fix _ hF]
    rw [remPos]
    by_cases hb : E.mem (E.ib + BitVec.ofNat 16 ((i + 1) % 256)) = 155#8
    · have ht' : txt[(i + 1) % 256]? = some 155 := by rw [ht, hb]; rfl
      rw [if_pos ht']
      obtain ⟨m1, r1, e1, c1⟩ := rem_end m (by rw [er]; exact hb) hs
      refine ⟨m1, r1, ?_, c1, by rw [e1], by rw [e1]⟩
      rw [e1]
      exact h.move G rfl rfl hy' (W.last _ hj ht') h.op rfl rfl rfl rfl rfl rfl
    · have ht' : ¬ txt[(i + 1) % 256]? = some 155 := by
        rw [ht]
        intro x
        injection x with x
        exact hb (BitVec.eq_of_toNat_eq x)
      rw [if_neg ht']
      obtain ⟨m1, r1, e1, y1⟩ := rem_more m (by rw [er]; exact hb)
      have hne : (i + 1) % 256 ≠ E.e := by
        intro x
        apply hb
        rw [x]; exact G.eol
      have := G.elt
      obtain ⟨m2, r2, h2, c2, s2, p2⟩ := ih ((i + 1) % 256) m1 (by omega) hj (by rw [e1]; exact h) (by rw [y1]; exact hy') (by
        show m1.pv.stk = _
        rw [e1]; exact hs)
      exact ⟨m2, r1.trans r2, h2, c2, s2, by rw [p2, e1]⟩

/-- What `E_REM` does. -/
theorem rem_calls (G : Good L E txt) (W : Whole E txt) (s : St B ρ) (m : M) (h : Rel E s m.pv) :
    ∃ m', Calls eolCode eolCode.E_REM m m' ∧ Rel E { s with pos := remPos txt 256 s.pos } m'.pv ∧ m'.c = false ∧ m'.stk = m.stk ∧ m'.pv.pp = m.pv.pp := by
  obtain ⟨m1, r1, e1, y1⟩ := rem_start { m with stk := .ret [] :: m.stk }
  have hl := G.elt
  have hp := h.ple
  obtain ⟨m2, r2, h2, c2, s2, p2⟩ := rem_sim G W s 256 s.pos m1 (Nat.mod_lt _ (by decide)) (by omega) (by rw [e1]; exact h.same G rfl rfl rfl rfl rfl rfl rfl rfl)
    (by rw [y1]; exact h.pos) (by show m1.pv.stk = _; rw [e1]; rfl)
  exact ⟨m2, r1.trans r2, h2, c2, s2, by rw [p2, e1]; rfl⟩

theorem eol_blanks (G : Good L E txt) {k : Code} {st : List Slot} (s : St B ρ) : ∀ (n : Nat) (i : Nat) (m : M), E.e - i = n → i ≤ E.e → Rel E s m.pv → m.y.toNat = i → m.a = 32#8 →
    m.pv.stk = .ret k :: st →
    ∃ m', Reach eolCode eolCode.skb_1 m k m' ∧ Rel E { s with pos := i + blanks (fun c => c == 32) (txt.drop i) } m'.pv ∧ m'.pv.stk = st ∧ m'.pv.pp = m.pv.pp ∧ m'.y = m'.pv.ci := by
  intro n
  induction n with
  | zero =>
    intro i m hn hi h hy ha hs
    have : i = E.e := by omega
    subst this
    obtain ⟨hF, ht⟩ := G.text E.e (Nat.le_refl _)
    have er : m.pv.ram (idx (word m.pv.z.inb m.pv.z.inbh) m.y) = 155#8 := by rw [idx, h.inb, hy, h.fix _ hF]; exact G.eol
    obtain ⟨m1, r1, e1, y1⟩ := eol_ws_end m ha (by rw [er]; decide) hs
    have hb : blanks (fun c => c == 32) (txt.drop E.e) = 0 := by
      rw [drop_cons ht, G.eol]; rfl
    rw [hb, Nat.add_zero]
    refine ⟨m1, r1, ?_, by rw [e1], by rw [e1], by rw [y1, e1]⟩
    rw [e1]; exact h.move G rfl rfl hy (Nat.le_refl _) h.op rfl rfl rfl rfl rfl rfl
  | succ n ih =>
    intro i m hn hi h hy ha hs
    obtain ⟨hF, ht⟩ := G.text i hi
    have er : m.pv.ram (idx (word m.pv.z.inb m.pv.z.inbh) m.y) = E.mem (E.ib + BitVec.ofNat 16 i) := by rw [idx, h.inb, hy]; exact h.fix _ hF
    have hyl := m.y.isLt
    have := G.elt
    by_cases hb : E.mem (E.ib + BitVec.ofNat 16 i) = 32#8
    · have ey : (m.y + 1#8).toNat = i + 1 := by rw [BitVec.toNat_add, hy]; simp; omega
      obtain ⟨m1, r1, e1, y1, a1⟩ := eol_ws_more m ha (by rw [er]; exact hb)
        (by intro x; rw [x] at ey; exact absurd ey (by simp))
      obtain ⟨m2, r2, h2, s2, p2, y2⟩ := ih (i + 1) m1 (by omega) (by omega) (by rw [e1]; exact h) (by rw [y1]; exact ey) a1 (by rw [e1]; exact hs)
      refine ⟨m2, r1.trans r2, ?_, s2, by rw [p2, e1], y2⟩
      have eb : i + blanks (fun c => c == 32) (txt.drop i) = i + 1 + blanks (fun c => c == 32) (txt.drop (i + 1)) := by
        rw [drop_cons ht, hb, blanks]; simp; omega
      rw [eb]; exact h2
    · obtain ⟨m1, r1, e1, y1⟩ := eol_ws_end m ha (by rw [er]; exact hb) hs
      have hb0 : blanks (fun c => c == 32) (txt.drop i) = 0 := by
        rw [drop_cons ht, blanks, if_neg]
        intro x
        rw [beq_iff_eq] at x
        exact hb (BitVec.eq_of_toNat_eq x)
      rw [hb0, Nat.add_zero]
      refine ⟨m1, r1, ?_, by rw [e1], by rw [e1], by rw [y1, e1]⟩
      rw [e1]; exact h.move G rfl rfl hy hi h.op rfl rfl rfl rfl rfl rfl

/-- What `E_EOL` does. -/
theorem eol_calls (G : Good L E txt) (W : Whole E txt) (s : St B ρ) (m : M) (h : Rel E s m.pv) : match natEol txt s with
    | .ok s' => ∃ m', Calls eolCode eolCode.E_EOL m m' ∧ m'.c = false ∧ Rel E s' m'.pv ∧ m'.pv.pp = m.pv.pp ∧ m'.stk = m.stk
    | .fail s' => ∃ m', Calls eolCode eolCode.E_EOL m m' ∧ m'.c = true ∧ Rel E s' m'.pv ∧ m'.pv.pp = m.pv.pp ∧ m'.stk = m.stk
    | .stop => False := by
  obtain ⟨m1, r1, e1, y1, a1⟩ := eol_ws_start { m with stk := .ret [] :: m.stk }
  have h1 : Rel E s m1.pv := by rw [e1]; exact h.same G rfl rfl rfl rfl rfl rfl rfl rfl
  obtain ⟨m2, r2, h2, s2, p2, y2⟩ := eol_blanks G s (E.e - s.pos) s.pos m1 rfl h.ple h1 (by rw [y1]; exact h.pos) a1 (by rw [e1])
  have pp2 : m2.pv.pp = m.pv.pp := by rw [p2, e1]; rfl
  obtain ⟨hc, -⟩ := h2.ch G
  have ec : m2.ram (idx (word m2.zp.inb m2.zp.inbh) m2.y) = m2.pv.ch := by rw [y2]; rfl
  have hc' : txt[s.pos + blanks (fun c => c == 32) (txt.drop s.pos)]? = some (m2.ram (idx (word m2.zp.inb m2.zp.inbh) m2.y)).toNat := by rw [ec]; exact hc
  have r12 := r1.trans r2
  rw [natEol]
  dsimp only
  rw [hc']
  by_cases b1 : m2.ram (idx (word m2.zp.inb m2.zp.inbh) m2.y) = 155#8
  · rw [b1]
    obtain ⟨m3, r3, e3, c3⟩ := eol_eol m2 b1 s2
    refine ⟨m3, r12.trans r3, c3, ?_, by rw [e3]; exact pp2, congrArg PV.stk e3⟩
    rw [e3]; exact h2.same G rfl rfl rfl rfl rfl rfl rfl rfl
  by_cases b2 : m2.ram (idx (word m2.zp.inb m2.zp.inbh) m2.y) = 39#8
  · rw [b2]
    obtain ⟨m3, r3, e3, y3⟩ := eol_quote m2 b2
    have hl := G.elt
    have hp := h2.ple
    obtain ⟨m4, r4, h4, c4, s4, p4⟩ := rem_sim G W _ 256 (s.pos + blanks (fun c => c == 32) (txt.drop s.pos)) m3 (Nat.mod_lt _ (by decide)) (Nat.lt_succ_of_le (Nat.le_trans hp hl)) (by rw [e3]; exact h2) (by rw [y3, y2]; exact h2.pos)
      (by show m3.pv.stk = _; rw [e3]; exact s2)
    exact ⟨m4, r12.trans (r3.trans r4), c4, h4, by rw [p4, e3]; exact pp2, s4⟩
  by_cases b3 : m2.ram (idx (word m2.zp.inb m2.zp.inbh) m2.y) = 58#8
  · rw [b3]
    obtain ⟨m3, r3, e3, c3⟩ := eol_colon m2 b3 s2
    refine ⟨m3, r12.trans r3, c3, ?_, by rw [e3]; exact pp2, congrArg PV.stk e3⟩
    rw [e3]; exact h2.same G rfl rfl rfl rfl rfl rfl rfl rfl
  obtain ⟨m3, r3, e3, c3⟩ := eol_no m2 b1 b2 b3 s2
  have hh : Rel E { s with pos := s.pos + blanks (fun c => c == 32) (txt.drop s.pos) } m3.pv := by rw [e3]; exact h2.same G rfl rfl rfl rfl rfl rfl rfl rfl
  have n1 : (m2.ram (idx (word m2.zp.inb m2.zp.inbh) m2.y)).toNat ≠ 155 := fun x => b1 (BitVec.eq_of_toNat_eq x)
  have n2 : (m2.ram (idx (word m2.zp.inb m2.zp.inbh) m2.y)).toNat ≠ 39 := fun x => b2 (BitVec.eq_of_toNat_eq x)
  have n3 : (m2.ram (idx (word m2.zp.inb m2.zp.inbh) m2.y)).toNat ≠ 58 := fun x => b3 (BitVec.eq_of_toNat_eq x)
  dsimp only
  rw [if_neg n1, if_neg n2, if_neg n3]
  exact ⟨m3, r12.trans r3, c3, hh, by rw [e3]; exact pp2, congrArg PV.stk e3⟩

end
end FB.Eng
