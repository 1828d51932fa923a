import Verif.RulesA
namespace FB
open Peep

theorem lo_and255 (w : W) : lo (BitVec.ofInt 16 (and255 w.toInt)) = lo w := by
  apply BitVec.eq_of_toNat_eq
  simp [lo, and255, BitVec.toNat_ofInt, BitVec.toInt_eq_toNat_cond]
  split <;> omega

/-- Compute edits. -/
macro "edits" : tactic => `(tactic| simp [Ed.copy, Ed.copy1, Ed.ins, Ed.setW, Ed.setB, Ed.setTok, Ed.set, Ed.del, Ed.val, Ed.insTok, Ed.insW, Ed.insB, val, asm, asmI])

/-- The operand of a token at index `i`. -/
theorem opAt {c : List Codew} (hw : wf c = true) (i : Nat) {t : Tok} (h : c[i]? = some (.tok t))
    (ht : takesOp t = true) : ∃ o, c[i + 1]? = some o ∧ opOK t o = true := by
  induction c generalizing i with
  | nil => simp at h
  | cons a c ih =>
    cases i with
    | zero =>
      simp only [List.getElem?_cons_zero, Option.some.injEq] at h
      subst h
      simp only [wf, headOK, ht, Bool.and_eq_true, Bool.not_true, Bool.false_or] at hw
      have := hw.1
      split at this
      · exact ⟨_, rfl, this⟩
      · simp at this
    | succ i => simpa using ih (wf_tail hw) i (by simpa using h)

theorem varAt {c : List Codew} (hw : wf c = true) (i : Nat) {t : Tok} (h : c[i]? = some (.tok t))
    (ht : t = .VAR_ADDR ∨ t = .VAR_LOAD ∨ t = .ADD_VAR ∨ t = .VAR_STORE ∨ t = .VAR_SADDR ∨ t = .PUSH_VAR_LOAD) :
    ∃ n s, c[i + 1]? = some (.varn n s) := by
  obtain ⟨o, h1, h2⟩ := opAt hw i h (by rcases ht with rfl | rfl | rfl | rfl | rfl | rfl <;> rfl)
  obtain ⟨n, s, rfl⟩ := opOK_var h2 ht
  exact ⟨n, s, h1⟩

theorem rPokeBN_sound : RS rPokeBN := by
  intro c ch ub hg hw
  simp only [rPokeBN] at hg ⊢
  uncons c, a0, hg
  uncons c, a1, hg
  uncons c, a2, hg
  uncons c, a3, hg
  uncons c, a4, hg
  uncons c, a5, hg
  guards hg
  obtain ⟨⟨⟨⟨⟨⟨⟨rfl, w, rfl⟩, rfl⟩, rfl⟩, w', rfl⟩, rfl⟩, hv1⟩, hv2⟩ := hg
  replace hv2 : w.toInt ≤ 255 := by first | exact hv2 | exact of_decide_eq_true hv2
  replace hv1 : 0 ≤ w.toInt := by first | exact hv1 | exact of_decide_eq_true hv1
  refine mkRS [(.NUM, [.word w]), (.SADDR, []), (.NUM, [.word w']), (.POKE, [])]
    [(.NUM, [.word (BitVec.ofInt 16 (and255 w'.toInt))]), (.BYTE_POKE, [.byte (BitVec.ofInt 8 w.toInt)])] c (by edits) rfl (by simp) rfl rfl rfl ?_ ?_
  · simp [asm, asmI]
  · intro _
    loc h <;> (subst h; simp only [D.write, lo_and255, byte_of_small hv1 (show w.toInt < 256 by omega)]; split <;> (constructor <;> simp))

theorem rPokeBV_sound : RS rPokeBV := by
  intro c ch ub hg hw
  simp only [rPokeBV] at hg ⊢
  uncons c, a0, hg
  uncons c, a1, hg
  uncons c, a2, hg
  uncons c, a3, hg
  uncons c, a4, hg
  uncons c, a5, hg
  guards hg
  obtain ⟨⟨⟨⟨⟨⟨rfl, w, rfl⟩, rfl⟩, rfl⟩, rfl⟩, hv1⟩, hv2⟩ := hg
  replace hv2 : w.toInt ≤ 255 := by first | exact hv2 | exact of_decide_eq_true hv2
  replace hv1 : 0 ≤ w.toInt := by first | exact hv1 | exact of_decide_eq_true hv1
  obtain ⟨n, s, hx⟩ := varAt hw 3 rfl (by simp)
  simp only [List.getElem?_cons_succ, List.getElem?_cons_zero, Option.some.injEq] at hx
  subst hx
  refine mkRS [(.NUM, [.word w]), (.SADDR, []), (.VAR_LOAD, [.varn n s]), (.POKE, [])]
    [(.VAR_LOAD, [.varn n s]), (.BYTE_POKE, [.byte (BitVec.ofInt 8 w.toInt)])] c (by edits) rfl (by simp) rfl rfl rfl ?_ ?_
  · simp [asm, asmI]
  · intro _
    locv h n <;> (subst h; simp only [D.write, byte_of_small hv1 (show w.toInt < 256 by omega)]; split <;> (constructor <;> simp))

theorem rPokeByteNum_sound : RS rPokeByteNum := by
  intro c ch ub hg hw
  simp only [rPokeByteNum] at hg ⊢
  uncons c, a0, hg
  uncons c, a1, hg
  uncons c, a2, hg
  uncons c, a3, hg
  uncons c, a4, hg
  uncons c, a5, hg
  guards hg
  obtain ⟨⟨⟨⟨rfl, rfl⟩, rfl⟩, w', rfl⟩, rfl⟩ := hg
  ops hw
  rcases opOK_byte hw.1 (by simp) with ⟨b, rfl⟩ | ⟨b, rfl⟩
  · refine mkRS [(.BYTE, [.byte b]), (.SADDR, []), (.NUM, [.word w']), (.POKE, [])]
      [(.NUM, [.word (BitVec.ofInt 16 (and255 w'.toInt))]), (.BYTE_POKE, [.byte b])] c (by edits) rfl (by simp) rfl rfl rfl ?_ ?_
    · simp [asm, asmI]
    · intro hcc
      simp [asm, asmI] at hcc
      try have hne : b ≠ "PRINT_COLOR" := fun h => hcc h.symm
      loc h <;> (subst h; simp only [D.write, lo_and255]; (try rw [if_neg hne]); split <;> (constructor <;> simp))
  · refine mkRS [(.BYTE, [.byteStr b]), (.SADDR, []), (.NUM, [.word w']), (.POKE, [])]
      [(.NUM, [.word (BitVec.ofInt 16 (and255 w'.toInt))]), (.BYTE_POKE, [.byteStr b])] c (by edits) rfl (by simp) rfl rfl rfl ?_ ?_
    · simp [asm, asmI]
    · intro hcc
      simp [asm, asmI] at hcc
      try have hne : b ≠ "PRINT_COLOR" := fun h => hcc h.symm
      loc h <;> (subst h; simp only [D.write, lo_and255]; (try rw [if_neg hne]); split <;> (constructor <;> simp))

theorem rPokeByteVar_sound : RS rPokeByteVar := by
  intro c ch ub hg hw
  simp only [rPokeByteVar] at hg ⊢
  uncons c, a0, hg
  uncons c, a1, hg
  uncons c, a2, hg
  uncons c, a3, hg
  uncons c, a4, hg
  uncons c, a5, hg
  guards hg
  obtain ⟨⟨⟨rfl, rfl⟩, rfl⟩, rfl⟩ := hg
  obtain ⟨n, s, hx⟩ := varAt hw 3 rfl (by simp)
  simp only [List.getElem?_cons_succ, List.getElem?_cons_zero, Option.some.injEq] at hx
  subst hx
  ops hw
  rcases opOK_byte hw.1 (by simp) with ⟨b, rfl⟩ | ⟨b, rfl⟩
  · refine mkRS [(.BYTE, [.byte b]), (.SADDR, []), (.VAR_LOAD, [.varn n s]), (.POKE, [])]
      [(.VAR_LOAD, [.varn n s]), (.BYTE_POKE, [.byte b])] c (by edits) rfl (by simp) rfl rfl rfl ?_ ?_
    · simp [asm, asmI]
    · intro hcc
      simp [asm, asmI] at hcc
      try have hne : b ≠ "PRINT_COLOR" := fun h => hcc h.symm
      locv h n <;> (subst h; simp only [D.write]; (try rw [if_neg hne]); split <;> (constructor <;> simp))
  · refine mkRS [(.BYTE, [.byteStr b]), (.SADDR, []), (.VAR_LOAD, [.varn n s]), (.POKE, [])]
      [(.VAR_LOAD, [.varn n s]), (.BYTE_POKE, [.byteStr b])] c (by edits) rfl (by simp) rfl rfl rfl ?_ ?_
    · simp [asm, asmI]
    · intro hcc
      simp [asm, asmI] at hcc
      try have hne : b ≠ "PRINT_COLOR" := fun h => hcc h.symm
      locv h n <;> (subst h; simp only [D.write]; (try rw [if_neg hne]); split <;> (constructor <;> simp))

theorem rPokeNN_sound : RS rPokeNN := by
  intro c ch ub hg hw
  simp only [rPokeNN] at hg ⊢
  uncons c, a0, hg
  uncons c, a1, hg
  uncons c, a2, hg
  uncons c, a3, hg
  uncons c, a4, hg
  uncons c, a5, hg
  guards hg
  obtain ⟨⟨⟨⟨rfl, rfl⟩, rfl⟩, w', rfl⟩, rfl⟩ := hg
  ops hw
  rcases opOK_word hw.1 (by simp) with ⟨b, rfl⟩ | ⟨b, rfl⟩
  · refine mkRS [(.NUM, [.word b]), (.SADDR, []), (.NUM, [.word w']), (.POKE, [])]
      [(.NUM, [.word (BitVec.ofInt 16 (and255 w'.toInt))]), (.NUM_POKE, [.word b])] c (by edits) rfl (by simp) rfl rfl rfl ?_ ?_
    · simp [asm, asmI]
    · intro hcc
      loc h <;> (subst h; simp only [D.write, lo_and255]; split <;> (constructor <;> simp))
  · refine mkRS [(.NUM, [.wordStr b]), (.SADDR, []), (.NUM, [.word w']), (.POKE, [])]
      [(.NUM, [.word (BitVec.ofInt 16 (and255 w'.toInt))]), (.NUM_POKE, [.wordStr b])] c (by edits) rfl (by simp) rfl rfl rfl ?_ ?_
    · simp [asm, asmI]
    · intro hcc
      loc h <;> (subst h; simp only [D.write, lo_and255]; split <;> (constructor <;> simp))

theorem rPokeNV_sound : RS rPokeNV := by
  intro c ch ub hg hw
  simp only [rPokeNV] at hg ⊢
  uncons c, a0, hg
  uncons c, a1, hg
  uncons c, a2, hg
  uncons c, a3, hg
  uncons c, a4, hg
  uncons c, a5, hg
  guards hg
  obtain ⟨⟨⟨⟨rfl, w, rfl⟩, rfl⟩, rfl⟩, rfl⟩ := hg
  obtain ⟨n, s, hx⟩ := varAt hw 3 rfl (by simp)
  simp only [List.getElem?_cons_succ, List.getElem?_cons_zero, Option.some.injEq] at hx
  subst hx
  refine mkRS [(.NUM, [.word w]), (.SADDR, []), (.VAR_LOAD, [.varn n s]), (.POKE, [])]
    [(.VAR_LOAD, [.varn n s]), (.NUM_POKE, [.word (BitVec.ofInt 16 w.toInt)])] c (by edits) rfl (by simp) rfl rfl rfl ?_ ?_
  · simp [asm, asmI]
  · intro _
    locv h n <;> (subst h; simp only [D.write, BitVec.ofInt_toInt]; split <;> (constructor <;> simp))

theorem rAddVar_sound : RS rAddVar := by
  intro c ch ub hg hw
  simp only [rAddVar] at hg ⊢
  uncons c, a0, hg
  uncons c, a1, hg
  uncons c, a2, hg
  uncons c, a3, hg
  guards hg
  obtain ⟨⟨rfl, rfl⟩, rfl⟩ := hg
  obtain ⟨n, s, hx⟩ := varAt hw 1 rfl (by simp)
  simp only [List.getElem?_cons_succ, List.getElem?_cons_zero, Option.some.injEq] at hx
  subst hx
  refine mkRS [(.PUSH, []), (.VAR_LOAD, [.varn n s]), (.ADD, [])]
    [(.ADD_VAR, [.varn n s])] c (by edits) rfl (by simp) rfl rfl rfl ?_ ?_
  · simp [asm, asmI]
  · intro _
    locv h n <;> (subst h; simp [ LessDef.refl])

theorem rVarAddNum_sound : RS rVarAddNum := by
  intro c ch ub hg hw
  simp only [rVarAddNum] at hg ⊢
  uncons c, a0, hg
  uncons c, a1, hg
  uncons c, a2, hg
  uncons c, a3, hg
  uncons c, a4, hg
  uncons c, a5, hg
  guards hg
  obtain ⟨⟨⟨⟨rfl, rfl⟩, rfl⟩, w, rfl⟩, rfl⟩ := hg
  obtain ⟨n, s, hx⟩ := varAt hw 0 rfl (by simp)
  simp only [List.getElem?_cons_succ, List.getElem?_cons_zero, Option.some.injEq] at hx
  subst hx
  refine mkRS [(.VAR_LOAD, [.varn n s]), (.PUSH, []), (.NUM, [.word w]), (.ADD, [])]
    [(.NUM, [.word (BitVec.ofInt 16 w.toInt)]), (.ADD_VAR, [.varn n s])] c (by edits) rfl (by simp) rfl rfl rfl ?_ ?_
  · simp [asm, asmI]
  · intro _
    locv h n <;> (subst h; simp [BitVec.add_comm, LessDef.refl])

theorem rVarAddUshl_sound : RS rVarAddUshl := by
  intro c ch ub hg hw
  simp only [rVarAddUshl] at hg ⊢
  uncons c, a0, hg
  uncons c, a1, hg
  uncons c, a2, hg
  uncons c, a3, hg
  uncons c, a4, hg
  uncons c, a5, hg
  uncons c, a6, hg
  guards hg
  obtain ⟨⟨⟨⟨rfl, rfl⟩, rfl⟩, rfl⟩, rfl⟩ := hg
  obtain ⟨n, s, hx⟩ := varAt hw 0 rfl (by simp)
  simp only [List.getElem?_cons_succ, List.getElem?_cons_zero, Option.some.injEq] at hx
  subst hx
  obtain ⟨m, s', hx⟩ := varAt hw 3 rfl (by simp)
  simp only [List.getElem?_cons_succ, List.getElem?_cons_zero, Option.some.injEq] at hx
  subst hx
  refine mkRS [(.VAR_LOAD, [.varn n s]), (.PUSH, []), (.VAR_LOAD, [.varn m s']), (.USHL, []), (.ADD, [])]
    [(.VAR_LOAD, [.varn m s']), (.USHL, []), (.ADD_VAR, [.varn n s])] c (by edits) rfl (by simp) rfl rfl rfl ?_ ?_
  · simp [asm, asmI]
  · intro _
    locvv h n m <;> (subst h; simp [BitVec.add_comm, LessDef.refl])

theorem rArrIdx_sound : RS rArrIdx := by
  intro c ch ub hg hw
  simp only [rArrIdx] at hg ⊢
  uncons c, a0, hg
  uncons c, a1, hg
  uncons c, a2, hg
  uncons c, a3, hg
  uncons c, a4, hg
  uncons c, a5, hg
  uncons c, a6, hg
  uncons c, a7, hg
  uncons c, a8, hg
  guards hg
  obtain ⟨⟨⟨⟨⟨⟨rfl, rfl⟩, rfl⟩, w, rfl⟩, rfl⟩, rfl⟩, rfl⟩ := hg
  obtain ⟨n, s, hx⟩ := varAt hw 0 rfl (by simp)
  simp only [List.getElem?_cons_succ, List.getElem?_cons_zero, Option.some.injEq] at hx
  subst hx
  obtain ⟨m, s', hx⟩ := varAt hw 5 rfl (by simp)
  simp only [List.getElem?_cons_succ, List.getElem?_cons_zero, Option.some.injEq] at hx
  subst hx
  refine mkRS [(.VAR_LOAD, [.varn n s]), (.PUSH, []), (.NUM, [.word w]), (.ADD_VAR, [.varn m s']), (.USHL, []), (.ADD, [])]
    [(.NUM, [.word w]), (.ADD_VAR, [.varn m s']), (.USHL, []), (.ADD_VAR, [.varn n s])] c (by edits) rfl (by simp) rfl rfl rfl ?_ ?_
  · simp [asm, asmI]
  · intro _
    locvv h n m <;> (subst h; simp [BitVec.add_comm, LessDef.refl])

theorem rVarVar_sound : RS rVarVar := by
  intro c ch ub hg hw
  simp only [rVarVar] at hg ⊢
  uncons c, a0, hg
  uncons c, a1, hg
  uncons c, a2, hg
  uncons c, a3, hg
  uncons c, a4, hg
  uncons c, a5, hg
  guards hg
  obtain ⟨⟨⟨⟨rfl, rfl⟩, rfl⟩, rfl⟩, n, s, s', rfl, rfl⟩ := hg
  refine mkRS [(.VAR_LOAD, [.varn n s]), (.PUSH, []), (.VAR_LOAD, [.varn n s']), (.ADD, [])]
    [(.VAR_LOAD, [.varn n s]), (.USHL, [])] c (by edits) rfl (by simp) rfl rfl rfl ?_ ?_
  · simp [asm, asmI]
  · intro _
    locv h n <;> (subst h; simp [ LessDef.refl])

theorem rInc1_sound : RS rInc1 := by
  intro c ch ub hg hw
  simp only [rInc1] at hg ⊢
  uncons c, a0, hg
  uncons c, a1, hg
  uncons c, a2, hg
  uncons c, a3, hg
  uncons c, a4, hg
  uncons c, a5, hg
  uncons c, a6, hg
  uncons c, a7, hg
  guards hg
  obtain ⟨⟨⟨⟨⟨⟨⟨rfl, rfl⟩, rfl⟩, w, rfl⟩, hv⟩, rfl⟩, rfl⟩, n, s, s', rfl, rfl⟩ := hg
  obtain rfl := toInt_eq hv
  refine mkRS [(.VAR_LOAD, [.varn n s]), (.PUSH, []), (.NUM, [.word _]), (.ADD, []), (.VAR_STORE, [.varn n s'])]
    [(.INCVAR, [.varn n s])] c (by edits) rfl (by simp) rfl rfl rfl ?_ ?_
  · simp [asm, asmI]
  · intro _
    locv h n <;> (subst h; simp [ LessDef.refl])

theorem rInc2_sound : RS rInc2 := by
  intro c ch ub hg hw
  simp only [rInc2] at hg ⊢
  uncons c, a0, hg
  uncons c, a1, hg
  uncons c, a2, hg
  uncons c, a3, hg
  uncons c, a4, hg
  uncons c, a5, hg
  uncons c, a6, hg
  uncons c, a7, hg
  uncons c, a8, hg
  uncons c, a9, hg
  guards hg
  obtain ⟨⟨⟨⟨⟨⟨⟨⟨⟨rfl, rfl⟩, rfl⟩, rfl⟩, rfl⟩, w, rfl⟩, hv⟩, rfl⟩, rfl⟩, n, s, s', rfl, rfl⟩ := hg
  obtain rfl := toInt_eq hv
  refine mkRS [(.VAR_ADDR, [.varn n s]), (.SADDR, []), (.VAR_LOAD, [.varn n s']), (.PUSH, []), (.NUM, [.word _]), (.ADD, []), (.DPOKE, [])]
    [(.INCVAR, [.varn n s])] c (by edits) rfl (by simp) rfl rfl rfl ?_ ?_
  · simp [asm, asmI]
  · intro _
    locg h n <;> (subst h; simp [updMem2, LessDef.refl])

theorem rInc3_sound : RS rInc3 := by
  intro c ch ub hg hw
  simp only [rInc3] at hg ⊢
  uncons c, a0, hg
  uncons c, a1, hg
  uncons c, a2, hg
  guards hg
  obtain ⟨rfl, rfl⟩ := hg
  obtain ⟨n, s, hx⟩ := varAt hw 0 rfl (by simp)
  simp only [List.getElem?_cons_succ, List.getElem?_cons_zero, Option.some.injEq] at hx
  subst hx
  refine mkRS [(.VAR_ADDR, [.varn n s]), (.INC, [])]
    [(.INCVAR, [.varn n s])] c (by edits) rfl (by simp) rfl rfl rfl ?_ ?_
  · simp [asm, asmI]
  · intro _
    locv h n <;> (subst h; simp [ LessDef.refl])

theorem rInc4_sound : RS rInc4 := by
  intro c ch ub hg hw
  simp only [rInc4] at hg ⊢
  uncons c, a0, hg
  uncons c, a1, hg
  guards hg
  obtain ⟨rfl, rfl⟩ := hg
  refine mkRS [(.SADDR, []), (.INC, [])]
    [(.INC, [])] c (by edits) rfl (by simp) rfl rfl rfl ?_ ?_
  · simp [asm, asmI]
  · intro _
    loc h <;> (subst h; simp [ LessDef.refl])

theorem rDec1_sound : RS rDec1 := by
  intro c ch ub hg hw
  simp only [rDec1] at hg ⊢
  uncons c, a0, hg
  uncons c, a1, hg
  uncons c, a2, hg
  uncons c, a3, hg
  uncons c, a4, hg
  uncons c, a5, hg
  uncons c, a6, hg
  uncons c, a7, hg
  guards hg
  obtain ⟨⟨⟨⟨⟨⟨⟨rfl, rfl⟩, rfl⟩, w, rfl⟩, hv⟩, rfl⟩, rfl⟩, n, s, s', rfl, rfl⟩ := hg
  obtain rfl := toInt_eq hv
  refine mkRS [(.VAR_LOAD, [.varn n s]), (.PUSH, []), (.NUM, [.word _]), (.SUB, []), (.VAR_STORE, [.varn n s'])]
    [(.DECVAR, [.varn n s])] c (by edits) rfl (by simp) rfl rfl rfl ?_ ?_
  · simp [asm, asmI]
  · intro _
    locv h n <;> (subst h; simp [ LessDef.refl])

theorem rDec2_sound : RS rDec2 := by
  intro c ch ub hg hw
  simp only [rDec2] at hg ⊢
  uncons c, a0, hg
  uncons c, a1, hg
  uncons c, a2, hg
  uncons c, a3, hg
  uncons c, a4, hg
  uncons c, a5, hg
  uncons c, a6, hg
  uncons c, a7, hg
  uncons c, a8, hg
  uncons c, a9, hg
  guards hg
  obtain ⟨⟨⟨⟨⟨⟨⟨⟨⟨rfl, rfl⟩, rfl⟩, rfl⟩, rfl⟩, w, rfl⟩, hv⟩, rfl⟩, rfl⟩, n, s, s', rfl, rfl⟩ := hg
  obtain rfl := toInt_eq hv
  refine mkRS [(.VAR_ADDR, [.varn n s]), (.SADDR, []), (.VAR_LOAD, [.varn n s']), (.PUSH, []), (.NUM, [.word _]), (.SUB, []), (.DPOKE, [])]
    [(.DECVAR, [.varn n s])] c (by edits) rfl (by simp) rfl rfl rfl ?_ ?_
  · simp [asm, asmI]
  · intro _
    locg h n <;> (subst h; simp [updMem2, LessDef.refl])

theorem rDec3_sound : RS rDec3 := by
  intro c ch ub hg hw
  simp only [rDec3] at hg ⊢
  uncons c, a0, hg
  uncons c, a1, hg
  uncons c, a2, hg
  guards hg
  obtain ⟨rfl, rfl⟩ := hg
  obtain ⟨n, s, hx⟩ := varAt hw 0 rfl (by simp)
  simp only [List.getElem?_cons_succ, List.getElem?_cons_zero, Option.some.injEq] at hx
  subst hx
  refine mkRS [(.VAR_ADDR, [.varn n s]), (.DEC, [])]
    [(.DECVAR, [.varn n s])] c (by edits) rfl (by simp) rfl rfl rfl ?_ ?_
  · simp [asm, asmI]
  · intro _
    locv h n <;> (subst h; simp [ LessDef.refl])

theorem rDec4_sound : RS rDec4 := by
  intro c ch ub hg hw
  simp only [rDec4] at hg ⊢
  uncons c, a0, hg
  uncons c, a1, hg
  guards hg
  obtain ⟨rfl, rfl⟩ := hg
  refine mkRS [(.SADDR, []), (.DEC, [])]
    [(.DEC, [])] c (by edits) rfl (by simp) rfl rfl rfl ?_ ?_
  · simp [asm, asmI]
  · intro _
    loc h <;> (subst h; simp [ LessDef.refl])

end FB
