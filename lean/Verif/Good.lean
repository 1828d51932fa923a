import Verif.Window
import Verif.Peephole
/-!
# Well-formed programs

`Good P` is what the parser guarantees of the code it hands to the optimizer: each token is followed
by an operand of its format, labels are unique and do not clash with the two reserved names; and (a
restriction of the theorems, not of the parser) the program does not use `PRINT COLOR`.
-/
namespace FB
open Peep

/-- Format of the operand, as the grammar emits it (`/repo/src/syntax/basic.syn`: `TOK_NUM` is followed by a
word, `TOK_BYTE` by a byte, the `TOK_VAR_…` by a variable, jumps by a label, …). -/
def opOK : Tok → Codew → Bool
  | .NUM, .word _ | .NUM, .wordStr _ | .PUSH_NUM, .word _ | .PUSH_NUM, .wordStr _
  | .NUM_POKE, .word _ | .NUM_POKE, .wordStr _ => true
  | .BYTE, .byte _ | .BYTE, .byteStr _ | .PUSH_BYTE, .byte _ | .PUSH_BYTE, .byteStr _
  | .BYTE_PEEK, .byte _ | .BYTE_PEEK, .byteStr _ | .BYTE_POKE, .byte _ | .BYTE_POKE, .byteStr _
  | .BYTE_PUT, .byte _ | .BYTE_PUT, .byteStr _ => true
  | .CSTRING, .str _ => true
  | .VAR_ADDR, .varn .. | .VAR_SADDR, .varn .. | .VAR_LOAD, .varn .. | .PUSH_VAR_LOAD, .varn ..
  | .ADD_VAR, .varn .. | .VAR_STORE, .varn .. | .INCVAR, .varn .. | .DECVAR, .varn ..
  | .VAR_STORE_0, .varn .. => true
  | .JUMP, .wordStr _ | .CJUMP, .wordStr _ | .CNJUMP, .wordStr _ | .CALL, .wordStr _ => true
  | _, _ => false

/-- The token `t` is followed by a proper operand. -/
def headOK (t : Tok) (r : List Codew) : Bool := !takesOp t || match r with
  | o :: _ => opOK t o
  | [] => false

/-- Every token is followed by a proper operand. -/
def wf : List Codew → Bool
  | [] => true
  | .tok t :: r => headOK t r && wf r
  | _ :: r => wf r

def labels (c : List Codew) : List String := c.filterMap fun | .label s => some s | _ => none

/-- What the parser guarantees: operands have the right format, labels are unique and not reserved. -/
structure Wf (P : List Codew) : Prop where
  ops : wf P = true
  nodup : (labels P).Nodup
  noEmpty : "" ∉ labels P
  noRet : "__TOK_RET__" ∉ labels P

/-- Well-formed programs without `PRINT COLOR`. -/
structure Good (P : List Codew) : Prop extends Wf P where
  nocol : Codew.byteStr "PRINT_COLOR" ∉ P

instance (P : List Codew) : Decidable (Wf P) :=
  decidable_of_iff (wf P = true ∧ (labels P).Nodup ∧ "" ∉ labels P ∧ "__TOK_RET__" ∉ labels P)
    ⟨fun ⟨a, c, d, e⟩ => ⟨a, c, d, e⟩, fun ⟨a, c, d, e⟩ => ⟨a, c, d, e⟩⟩

instance (P : List Codew) : Decidable (Good P) :=
  decidable_of_iff (Wf P ∧ Codew.byteStr "PRINT_COLOR" ∉ P)
    ⟨fun ⟨a, b⟩ => ⟨a, b⟩, fun ⟨a, b⟩ => ⟨a, b⟩⟩

theorem opOK_data {t o} (h : opOK t o = true) : o.isData = true := by
  cases o <;> first | rfl | (cases t <;> simp [opOK] at h)

theorem wf_tail {a : Codew} {r : List Codew} (h : wf (a :: r) = true) : wf r = true := by
  cases a <;> simp_all [wf]

theorem wf_drop {x r : List Codew} (h : wf (x ++ r) = true) : wf r = true := by
  induction x with
  | nil => exact h
  | cons a x ih => exact ih (wf_tail h)

theorem wf_append {x y : List Codew} (hx : wf x = true) (hy : wf y = true) : wf (x ++ y) = true := by
  induction x with
  | nil => exact hy
  | cons a x ih =>
    have := ih (wf_tail hx)
    cases a with
    | tok t =>
      simp only [List.cons_append, wf, Bool.and_eq_true] at hx ⊢
      refine ⟨?_, this⟩
      have h1 := hx.1
      simp only [headOK, Bool.or_eq_true] at h1 ⊢
      rcases h1 with h1 | h1
      · exact .inl h1
      · right; cases x <;> simp_all
    | _ => exact this

theorem wf_pre {x r : List Codew} {t : Tok} (h : wf (x ++ .tok t :: r) = true) : wf x = true := by
  induction x with
  | nil => rfl
  | cons a x ih =>
    have := ih (wf_tail h)
    cases a with
    | tok s =>
      simp only [List.cons_append, wf, Bool.and_eq_true] at h ⊢
      refine ⟨?_, this⟩
      have h1 := h.1
      simp only [headOK, Bool.or_eq_true] at h1 ⊢
      rcases h1 with h1 | h1
      · exact .inl h1
      · right
        cases x with
        | nil => have := opOK_data h1; simp [Codew.isData, Codew.isTok] at this
        | cons b x => exact h1
    | _ => exact this

theorem labels_append (x y : List Codew) : labels (x ++ y) = labels x ++ labels y := by
  simp [labels]

theorem labels_nolabel {x : List Codew} (h : NoLabel x) : labels x = [] := by
  simp only [labels, List.filterMap_eq_nil_iff]
  intro a ha
  have := h a ha
  cases a <;> simp_all [Codew.isLabel]

/-- Replacing a window keeps a program well formed. -/
theorem Wf.window {pre L R post : List Codew} (hg : Wf (pre ++ (L ++ post)))
    (hh : ∃ t L', L = .tok t :: L') (hL : NoLabel L) (hR : NoLabel R)
    (hw : wf (L ++ post) = true → wf (R ++ post) = true) : Wf (pre ++ (R ++ post)) := by
  obtain ⟨t, L', rfl⟩ := hh
  have hl : labels (pre ++ (R ++ post)) = labels (pre ++ (.tok t :: L' ++ post)) := by
    simp only [labels_append, labels_nolabel hL, labels_nolabel hR]
  exact ⟨wf_append (wf_pre hg.ops) (hw (wf_drop hg.ops)), hl ▸ hg.nodup, hl ▸ hg.noEmpty, hl ▸ hg.noRet⟩

/-- No label is lost or gained and no new name is used. -/
def RefOK (c c' : List Codew) : Prop :=
  labels c' = labels c ∧ ∀ l, Codew.wordStr l ∈ c' → Codew.wordStr l ∈ c

theorem RefOK.refl (c : List Codew) : RefOK c c := ⟨rfl, fun _ h => h⟩

theorem RefOK.trans {a b c : List Codew} (h1 : RefOK a b) (h2 : RefOK b c) : RefOK a c :=
  ⟨h2.1.trans h1.1, fun l h => h1.2 l (h2.2 l h)⟩

theorem RefOK.append {b c : List Codew} (h : RefOK b c) (a : List Codew) : RefOK (a ++ b) (a ++ c) := by
  refine ⟨by simp only [labels_append, h.1], fun l hl => ?_⟩
  simp only [List.mem_append] at hl ⊢
  exact hl.imp id (h.2 l)

theorem RefOK.window {L R post : List Codew} (hL : NoLabel L) (hR : NoLabel R)
    (hwd : ∀ l, Codew.wordStr l ∈ R → Codew.wordStr l ∈ L) : RefOK (L ++ post) (R ++ post) := by
  refine ⟨by simp only [labels_append, labels_nolabel hL, labels_nolabel hR], fun l h => ?_⟩
  simp only [List.mem_append] at h ⊢
  exact h.imp (hwd l) id

/-- Replacing the code `c` at some position by `c'` keeps programs well formed, and their labels. -/
def RuleWf (c c' : List Codew) : Prop := ∀ pre, Wf (pre ++ c) → Wf (pre ++ c') ∧ RefOK c c'

theorem RuleWf.refl (c : List Codew) : RuleWf c c := fun _ h => ⟨h, RefOK.refl _⟩

theorem RuleWf.trans {a b c : List Codew} (h1 : RuleWf a b) (h2 : RuleWf b c) : RuleWf a c := fun pre h =>
  let x := h1 pre h
  let y := h2 pre x.1
  ⟨y.1, x.2.trans y.2⟩

/-- Replacing the code `c` at some position by `c'` preserves behaviour. -/
structure RuleOK (c c' : List Codew) : Prop where
  wf : RuleWf c c'
  nocol : ∀ pre, Good (pre ++ c) → Codew.byteStr "PRINT_COLOR" ∉ c'
  refines : ∀ pre, Good (pre ++ c) → Refines (pre ++ c) (pre ++ c')

theorem RuleOK.all {c c' : List Codew} (h : RuleOK c c') (pre : List Codew) (hg : Good (pre ++ c)) :
    Refines (pre ++ c) (pre ++ c') ∧ Good (pre ++ c') ∧ RefOK c c' := by
  have h1 := h.wf pre hg.toWf
  refine ⟨h.refines pre hg, ⟨h1.1, ?_⟩, h1.2⟩
  have := hg.nocol
  simp only [List.mem_append, not_or] at this ⊢
  exact ⟨this.1, h.nocol pre hg⟩

theorem RuleOK.refl (c : List Codew) : RuleOK c c := ⟨RuleWf.refl c, fun _ h hm => h.nocol (by simp [hm]), fun _ _ => Refines.refl _⟩

theorem RuleOK.trans {a b c : List Codew} (h1 : RuleOK a b) (h2 : RuleOK b c) : RuleOK a c :=
  ⟨h1.wf.trans h2.wf, fun pre h => h2.nocol pre (h1.all pre h).2.1, fun pre h => (h1.refines pre h).trans (h2.refines pre (h1.all pre h).2.1)⟩

/-- Well-formed data instruction of the optimizer. -/
def iwf (i : Instr) : Bool := match i.2 with
  | [] => !takesOp i.1 && !isCtl i.1 && (match i.1 with | .other _ => false | _ => true)
  | [o] => takesOp i.1 && opOK i.1 o && !isCtl i.1
  | _ => false

theorem iwf_ok {i : Instr} (h : iwf i = true) : i.ok = true := by
  obtain ⟨t, ops⟩ := i
  match ops, h with
  | [], h => cases t <;> simp_all [iwf, takesOp, isCtl, Instr.ok, arityB]
  | [o], h =>
    simp only [iwf, Bool.and_eq_true] at h
    have hd := opOK_data h.1.2
    have h3 := h.2
    have h1 := h.1.1
    cases t <;> simp_all [takesOp, isCtl, Instr.ok, arityB]
  | _ :: _ :: _, h => simp [iwf] at h

theorem wf_asmI {i : Instr} (h : iwf i = true) : wf (asmI i) = true := by
  obtain ⟨t, ops⟩ := i
  match ops, h with
  | [], h => simp_all [iwf, asmI, wf, headOK]
  | [o], h =>
    simp only [iwf, Bool.and_eq_true] at h
    have hd := opOK_data h.1.2
    cases o <;> simp_all [asmI, wf, headOK, Codew.isData, Codew.isTok, Codew.isLabel]
  | _ :: _ :: _, h => simp [iwf] at h

theorem wf_asm {I : List Instr} (h : I.all iwf = true) : wf (asm I) = true := by
  induction I with
  | nil => rfl
  | cons i I ih =>
    simp only [List.all_cons, Bool.and_eq_true] at h
    exact wf_append (wf_asmI h.1) (ih h.2)

theorem all_ok {I : List Instr} (h : I.all iwf = true) : I.all Instr.ok = true := by
  simp only [List.all_eq_true] at h ⊢
  exact fun i hi => iwf_ok (h i hi)

/-- Replacing a sequence of instructions. -/
theorem lineOK {post : List Codew} (I J : List Instr) (hI : I ≠ []) (hi : I.all iwf = true) (hj : J.all iwf = true)
    (hc : Codew.byteStr "PRINT_COLOR" ∉ asm I → Codew.byteStr "PRINT_COLOR" ∉ asm J)
    (hl : Codew.byteStr "PRINT_COLOR" ∉ asm I → LocalOK I J)
    (hwd : ∀ l, Codew.wordStr l ∈ asm J → Codew.wordStr l ∈ asm I) : RuleOK (asm I ++ post) (asm J ++ post) := by
  obtain ⟨i0, I0, rfl⟩ : ∃ i I', I = i :: I' := by cases I <;> simp_all
  refine ⟨fun pre hg => ⟨hg.window ⟨i0.1, i0.2 ++ asm I0, by simp [asm, asmI]⟩ (NoLabel_asm (all_ok hi)) (NoLabel_asm (all_ok hj))
      (fun h => wf_append (wf_asm hj) (wf_drop h)), RefOK.window (NoLabel_asm (all_ok hi)) (NoLabel_asm (all_ok hj)) hwd⟩, ?_, fun pre hg => ?_⟩
  · intro pre hg
    have := hg.nocol
    simp only [List.mem_append, not_or] at this ⊢
    exact ⟨hc this.2.1, this.2.2⟩
  · exact window_line hI (all_ok hi) (all_ok hj) hg.nocol (hl fun hm => hg.nocol (by simp [hm]))

/-! ## Matching -/

theorem mtok_iff {n t c} : mtok n t c = true ↔ c[n]? = some (.tok t) := by simp [mtok]
theorem mcbyte_iff {n t c} : mcbyte n t c = true ↔ c[n]? = some (.byteStr t) := by simp [mcbyte]
theorem mword_iff {n c} : mword n c = true ↔ ∃ w, c[n]? = some (.word w) := by
  unfold mword; split <;> simp_all
theorem mbyte_iff {n c} : mbyte n c = true ↔ ∃ w, c[n]? = some (.byte w) := by
  unfold mbyte; split <;> simp_all
theorem mlabel_iff {n c} : mlabel n c = true ↔ ∃ w, c[n]? = some (.label w) := by
  unfold mlabel; split <;> simp_all
theorem mlblw_iff {n c} : mlblw n c = true ↔ ∃ w, c[n]? = some (.wordStr w) ∧ hasLbl w.toList = true := by
  unfold mlblw; split <;> simp_all
theorem varnEq_iff {a b c} : varnEq a b c = true ↔ ∃ n s s', c[a]? = some (.varn n s) ∧ c[b]? = some (.varn n s') := by
  unfold varnEq; split
  · rename_i h1 h2; simp only [h1, h2, beq_iff_eq, Option.some.injEq, Codew.varn.injEq]; grind
  · rename_i h; simp only [Bool.false_eq_true, false_iff, not_exists, not_and]
    intro n s s' h1 h2; exact h _ _ _ _ h1 h2
theorem mstring_lt {n c m} (hm : m ≤ 256) : mstring n c < m ↔ ∃ s, c[n]? = some (.str s) ∧ s.length < m := by
  unfold mstring; split <;> simp_all

/-- The operand of a variable token is a variable, and so on. -/
theorem opOK_var {t a} (h : opOK t a = true) (ht : t = .VAR_ADDR ∨ t = .VAR_LOAD ∨ t = .ADD_VAR ∨ t = .VAR_STORE ∨ t = .VAR_SADDR ∨ t = .PUSH_VAR_LOAD) :
    ∃ n s, a = .varn n s := by
  cases a <;> rcases ht with rfl | rfl | rfl | rfl | rfl | rfl <;> simp_all [opOK]

end FB
