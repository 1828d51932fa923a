import Verif.Eng.JCreate
/-!
# C45: the actions on loops and labels of the native compiler, as 6502 code

The routines of `/repo/src/actions.asm:121-139,439-861` do to the memory of the machine what the functional model of C25 (`Native/Jumps.lean`) says.
-/
namespace FB.Eng
open FB.Rt
open FB.Native (NS LAd put wbytes ltNum)
open FB.Parse (Act)

/-- The memory of the machine holds the state of the loops and labels of the compiler: the pointers, the code, the stack of loops, the list of addresses and the table of the names of
labels. -/
structure Holds (p : JPar) (ls : List Rt.Ent) (n : NS) (m : M) : Prop where
  rep : JRep p n m.jv
  names : NamesAt p n m.ram ls

section
variable (err lerr : B)
local notation "Q" => jmpCode err lerr memCode

/-- The routine of each action, `E_NAME` in `actions.asm`. -/
def entry : Act → Option Code
  | .PUSH_LT => some (jmpCode.E_PUSH_LT err lerr memCode)
  | .POP_LOOP => some (jmpCode.E_POP_LOOP err lerr memCode)
  | .POP_REPEAT => some (jmpCode.E_POP_REPEAT err lerr memCode)
  | .POP_WHILE => some (jmpCode.E_POP_WHILE err lerr memCode)
  | .POP_IF => some (jmpCode.E_POP_IF err lerr memCode)
  | .POP_FOR => some (jmpCode.E_POP_FOR err lerr memCode)
  | .POP_PROC_2 => some (jmpCode.E_POP_PROC_2 err lerr memCode)
  | .POP_PROC_DATA => some (jmpCode.E_POP_PROC_DATA err lerr memCode)
  | .ELSEIF => some (jmpCode.E_ELSEIF err lerr memCode)
  | .EXIT_LOOP => some (jmpCode.E_EXIT_LOOP err lerr memCode)
  | .LABEL_DEF => some (jmpCode.E_LABEL_DEF err lerr memCode)
  | .DO_EXEC => some (jmpCode.E_DO_EXEC err lerr memCode)
  | .LABEL => some (jmpCode.E_LABEL err lerr memCode)
  | .LABEL_CREATE => some memCode.label_create
  | _ => none

/-- The actions that take back the last byte of the line (`get_last_tok`, or `dec opos` in `E_POP_FOR`). -/
def takesLast : Act → Bool
  | .PUSH_LT | .ELSEIF | .POP_FOR | .LABEL => true
  | _ => false

end

theorem checkExitL_keep {r : Nat} : ∀ {l : List FB.Native.Ent} {n : NS}, (NS.checkExitL r l n).lab = n.lab ∧ (NS.checkExitL r l n).names = n.names := by
  intro l
  induction l with
  | nil => intro n; exact ⟨rfl, rfl⟩
  | cons e es ih =>
    intro n
    unfold NS.checkExitL
    split
    · exact ih
    · exact ⟨rfl, rfl⟩

theorem popElifs_keep {r : Nat} : ∀ {l : List FB.Native.Ent} {n : NS}, (NS.popElifs r l n).lab = n.lab ∧ (NS.popElifs r l n).names = n.names := by
  intro l
  induction l with
  | nil => intro n; exact ⟨rfl, rfl⟩
  | cons e es ih =>
    intro n
    unfold NS.popElifs
    split
    · exact ih
    · exact ⟨rfl, rfl⟩

theorem pop_keep {n n' : NS} {a q : Nat} (h : n.pop a = some (q, n')) : n'.lab = n.lab ∧ n'.names = n.names := by
  unfold NS.pop at h
  split at h
  · cases h
  · split at h
    · cases h; exact ⟨rfl, rfl⟩
    · cases h

theorem push_keep {n n' : NS} {a : Nat} (h : n.push a = some n') : n'.lab = n.lab ∧ n'.names = n.names := by
  unfold NS.push at h
  split at h
  · cases h
  · cases h; exact ⟨rfl, rfl⟩

theorem defLoop_names {r num : Nat} : ∀ {l l' : List LAd} {n n' : NS}, NS.defLoop r num l n = some (l', n') → n'.names = n.names := by
  intro l
  induction l with
  | nil => intro l' n n' h; simp only [NS.defLoop, Option.some.injEq, Prod.mk.injEq] at h; rw [← h.2]
  | cons e es ih =>
    intro l' n n' h
    unfold NS.defLoop at h
    split at h
    · split at h
      · cases h
      · split at h
        · cases h
        · rename_i hd; cases h; exact ih (n := n.patch r e.pos) hd
    · split at h
      · cases h
      · rename_i hd; cases h; exact ih hd

/-- The actions that do not read a name leave the names; only two of them change the list of addresses. -/
theorem action_keep {n n' : NS} {r : Nat} {name : Option FB.Parse.Str} {a : Act} (h1 : a ≠ .LABEL) (h2 : a ≠ .LABEL_CREATE) (h : n.action r name a = some n') :
    n'.names = n.names ∧ (a ≠ .LABEL_DEF → a ≠ .DO_EXEC → n'.lab = n.lab) := by
  cases a <;> simp only [NS.action, ne_eq, not_true_eq_false, reduceCtorEq, not_false_eq_true, forall_const, false_implies, and_true] at h h1 h2 ⊢
  case DO_EXEC =>
    simp only [NS.eDoExec, Option.some.injEq] at h
    subst h; unfold NS.useLabel; split <;> rfl
  case ELSEIF =>
    unfold NS.eElseIf at h
    split at h
    · cases h
    · rename_i hp
      split at h
      · cases h
      · rename_i hq; cases h
        have a1 := pop_keep hp; have a2 := push_keep hq
        exact ⟨a2.2.trans a1.2, a2.1.trans a1.1⟩
  case EXIT_LOOP =>
    unfold NS.eExitLoop at h
    split at h
    · cases h
    · split at h
      · cases h
      · cases h; exact ⟨rfl, rfl⟩
  case LABEL_DEF =>
    unfold NS.eLabelDef at h
    split at h
    · cases h
    · rename_i hp
      split at h
      · cases h
      · rename_i hd; cases h
        exact (defLoop_names hd).trans (push_keep hp).2
  case POP_FOR =>
    unfold NS.ePopFor at h
    split at h
    · cases h
    · rename_i hp
      split at h
      · cases h
      · rename_i hq; cases h
        have a1 := pop_keep hp; have a2 := pop_keep hq
        exact ⟨checkExitL_keep.2.trans (a2.2.trans a1.2), checkExitL_keep.1.trans (a2.1.trans a1.1)⟩
  case POP_IF =>
    unfold NS.ePopIf at h
    split at h
    · cases h
    · rename_i hp; cases h
      exact ⟨popElifs_keep.2.trans (pop_keep hp).2, popElifs_keep.1.trans (pop_keep hp).1⟩
  case POP_LOOP =>
    unfold NS.ePopLoop at h
    split at h
    · cases h
    · rename_i hp; cases h
      exact ⟨checkExitL_keep.2.trans (pop_keep hp).2, checkExitL_keep.1.trans (pop_keep hp).1⟩
  case POP_REPEAT =>
    unfold NS.ePopLoop at h
    split at h
    · cases h
    · rename_i hp; cases h
      exact ⟨checkExitL_keep.2.trans (pop_keep hp).2, checkExitL_keep.1.trans (pop_keep hp).1⟩
  case POP_PROC_2 =>
    unfold NS.ePopProc2 at h
    split at h
    · cases h
    · rename_i hp; cases h
      exact ⟨checkExitL_keep.2.trans (pop_keep hp).2, checkExitL_keep.1.trans (pop_keep hp).1⟩
  case POP_PROC_DATA =>
    unfold NS.ePopProcData at h
    split at h
    · cases h
    · rename_i hp; cases h
      exact ⟨(pop_keep hp).2, (pop_keep hp).1⟩
  case POP_WHILE =>
    unfold NS.ePopWhile at h
    split at h
    · cases h
    · rename_i hp
      simp only at h
      split at h
      · cases h
      · rename_i hq; cases h
        have a1 := pop_keep hp; have a2 := pop_keep hq
        exact ⟨checkExitL_keep.2.trans (a2.2.trans a1.2), checkExitL_keep.1.trans (a2.1.trans a1.1)⟩
  case PUSH_LT =>
    have := push_keep h
    exact ⟨this.2, this.1⟩
  all_goals cases h

section
variable (err lerr : B)
local notation "Q" => jmpCode err lerr memCode
variable {p : JPar} {n : NS} {m : M} {k : Code} {st : List Slot} {ls : List Rt.Ent} {b : Nat} {N : List B}

/-- What the routine of an action has to do, if the model gives `r`: with a new state that fits in memory, it returns with the carry clear, the memory has the new state, and the rest of
the state (`Fr`) does not change. With no new state, or with one that does not fit, it refuses: an error message, or the end of the compiler for lack of memory, or the carry set. -/
def Does45 (p : JPar) (ls : List Rt.Ent) (n : NS) (r : Option NS) (c : Code) (m : M) (k : Code) (st : List Slot) : Prop :=
  match r with
  | none => Refuses err lerr memCode c m k st
  | some n' => (Fits p n n' → ∃ m', Reach Q c m k m' ∧ m'.c = false ∧ m'.stk = st ∧ Holds p ls n' m' ∧ Fr p m.jv m'.jv) ∧ (¬ Fits p n n' → Refuses err lerr memCode c m k st)

theorem obeys_45 {r : Option NS} {c : Code} (h : Holds p ls n m) (ho : Obeys err lerr memCode p n r c m k st) (hn : ∀ n', r = some n' → n'.names = n.names) : Does45 err lerr p ls n r c m k st := by
  cases r with
  | none => exact ho
  | some n' =>
    refine ⟨fun hf => ?_, ho.2⟩
    obtain ⟨m', r, d, c⟩ := ho.1 hf
    exact ⟨m', r, c, d.stk, ⟨d.rep, h.names.keep (v := m.jv) (v' := m'.jv) h.rep d.fr.ram (hn n' rfl)⟩, d.fr⟩

/-- The actions on loops, the definition of labels and the calls to the last label: the routine does to the machine what the model does. -/
theorem C45_action {a : Act} {c : Code} (hc : entry err lerr a = some c) (h1 : a ≠ .LABEL) (h2 : a ≠ .LABEL_CREATE) (h : Holds p ls n m) (hs : m.stk = .ret k :: st)
    (hp : takesLast a = true → HasLast p n) (name : Option FB.Parse.Str) : Does45 err lerr p ls n (n.action p.reloc name a) c m k st := by
  apply obeys_45 err lerr h
  · have kp : ∀ n', n.action p.reloc name a = some n' → a ≠ .LABEL_DEF → a ≠ .DO_EXEC → n'.lab = n.lab := fun n' e => (action_keep h1 h2 e).2
    have hr := h.rep
    cases a <;> simp only [entry, Option.some.injEq, reduceCtorEq, ne_eq, not_false_eq_true, not_true_eq_false, forall_const] at hc kp h1 h2 <;> subst hc
    case PUSH_LT => exact (m_pushLT err lerr memCode hr hs (hp rfl)).obeys kp
    case POP_LOOP => exact (m_popLoop err lerr memCode hr hs).obeys kp
    case POP_REPEAT => exact (m_popRepeat err lerr memCode hr hs).obeys kp
    case POP_WHILE => exact (m_popWhile err lerr memCode hr hs).obeys kp
    case POP_IF => exact (m_popIf err lerr memCode hr hs).obeys kp
    case POP_FOR => exact (m_popFor err lerr memCode hr hs (hp rfl).1).obeys kp
    case POP_PROC_2 => exact (m_popProc2 err lerr memCode hr hs).obeys kp
    case POP_PROC_DATA => exact (m_popProcData err lerr memCode hr hs).obeys kp
    case ELSEIF => exact (m_elseIf err lerr memCode hr hs (hp rfl)).obeys kp
    case EXIT_LOOP => exact (m_exitLoop err lerr memCode hr hs).obeys kp
    case LABEL_DEF => exact m_labelDef err lerr hr hs
    case DO_EXEC => exact m_doExec err lerr hr hs
  · exact fun n' e => (action_keep h1 h2 e).1

/-- `E_LABEL`, for the jumps to a label and its uses in `EXEC`: the label has to be in the table with the type that is the last byte of the line. -/
theorem C45_label (h : Holds p ls n m) (hs : m.stk = .ret k :: st) (hN : NameIn m b N) (hp : HasLast p n) :
    match if typeOf ls N = some n.getLastTok.1 then n.action p.reloc (some (nameOf N)) .LABEL else none with
    | none => Refuses err lerr memCode (jmpCode.E_LABEL err lerr memCode) m k st
    | some n' => (Fits p n n' → ∃ m', Reach Q (jmpCode.E_LABEL err lerr memCode) m k m' ∧ m'.c = false ∧ m'.stk = st ∧ Holds p ls n' m' ∧ Frn p m.jv m'.jv ∧
          m'.zp.cix.toNat = m.zp.cix.toNat + b + N.length) ∧
        (¬ Fits p n n' → Refuses err lerr memCode (jmpCode.E_LABEL err lerr memCode) m k st) := by
  have key := m_label err lerr h.rep hs h.names hN hp
  have e : n.action p.reloc (some (nameOf N)) .LABEL = n.eLabel p.reloc (nameOf N) := rfl
  rw [e]
  split at key
  · rename_i hx; rw [hx]; exact key
  · rename_i n' hx
    rw [hx]
    refine ⟨fun hf => ?_, key.2⟩
    obtain ⟨m', r, c, s, j, f, x⟩ := key.1 hf
    have hn : n'.names = n.names := by
      split at hx
      · unfold NS.eLabel at hx
        split at hx
        · cases hx; unfold NS.useLabel; split <;> rfl
        · cases hx
      · cases hx
    exact ⟨m', r, c, s, ⟨j, h.names.keep (v := m.jv) (v' := m'.jv) h.rep f.ram hn⟩, f, x⟩

/-- `E_LABEL_CREATE`, for the definition of a label and the first use of `DATA` or `PROC`: a known name gives its number; a new one is added to the table, with type 0, if there is memory. -/
theorem C45_create (h : Holds p ls n m) (hs : m.stk = .ret k :: st) (hN : NameIn m b N) (hl : N.length ≤ 129) (hc : ls.length < 255)
    (hlow : TextLow p.base (idx m.bp m.zp.cix + BitVec.ofNat 16 b) N) :
    if nameOf N ∈ n.names ∨ p.lbuf + 4 * n.lab.length + N.length + 1 < p.top then
      ∃ m' n' p' ls', n.action p.reloc (some (nameOf N)) .LABEL_CREATE = some n' ∧
        (if nameOf N ∈ n.names then p' = p ∧ ls' = ls else p' = { p with lbuf := p.lbuf + (N.length + 1) } ∧ ls' = ls ++ [⟨N, 0⟩]) ∧
        Reach Q memCode.label_create m k m' ∧ m'.c = false ∧ m'.stk = st ∧ Holds p' ls' n' m' ∧ Frc p m.jv m'.jv ∧ m'.zp.cix.toNat = m.zp.cix.toNat + b + N.length
    else Fails Q memCode.label_create m := by
  by_cases hin : nameOf N ∈ n.names
  · rw [if_pos (.inl hin)]
    obtain ⟨m', r, c, s, j, t, f, x⟩ := m_create_old err lerr h.rep hs h.names hN hin
    exact ⟨m', _, p, ls, rfl, by rw [if_pos hin]; exact ⟨rfl, rfl⟩, r, c, s, ⟨j, t⟩, f, x⟩
  · by_cases hf : p.lbuf + 4 * n.lab.length + N.length + 1 < p.top
    · rw [if_pos (.inr hf)]
      obtain ⟨m', r, c, s, j, t, f, x⟩ := m_create_new err lerr h.rep hs h.names hN hin hl hc hlow hf
      exact ⟨m', _, _, _, rfl, by rw [if_neg hin]; exact ⟨rfl, rfl⟩, r, c, s, ⟨j, t⟩, f, x⟩
    · rw [if_neg (by simp only [not_or]; exact ⟨hin, hf⟩)]
      exact m_create_full err lerr h.rep hs h.names hN hin (by omega) (by omega)

/-- Without a name both actions return with the carry set. -/
theorem C45_no_name {a : Act} {c : Code} (hc : entry err lerr a = some c) (ha : a = .LABEL ∨ a = .LABEL_CREATE) (h : Holds p ls n m) (hs : m.stk = .ret k :: st) (hn : NoName m b)
    (hp : HasLast p n) : n.action p.reloc none a = none ∧ Refuses err lerr memCode c m k st := by
  rcases ha with rfl | rfl <;> cases hc
  · exact ⟨rfl, m_label_none err lerr h.rep hs hp hn⟩
  · exact ⟨rfl, m_create_none err lerr hs hn⟩

end
/-! ## A concrete case -/

/-- A program with an open `DO` at `$2000`, a use of the label `AB` at `$2010` without a definition, and five bytes in the line, at `$2100`; the last is 0. The line of text is ` CD:AB=`. -/
def exBytes : List (W × B) :=
  [(0xA2, 0x00), (0xA3, 0x21), (0xA4, 0x00), (0xA5, 0x22), (0xA6, 0x10), (0xA7, 0x22), (0xA8, 0x13), (0xA9, 0x22), (0xAA, 0x17), (0xAB, 0x22), (0xAF, 1), (0xB1, 0x34), (0xB2, 0x12), (0xB3, 3),
   (0x2E5, 0x00), (0x2E6, 0x9C), (0x400, 65), (0x401, 0x00), (0x402, 0x20), (0x580, 0x20), (0x581, 0x43), (0x582, 0x44), (0x583, 0x3A), (0x584, 0x41), (0x585, 0x42), (0x586, 0x3D),
   (0x2210, 0x41), (0x2211, 0xC2), (0x2212, 0), (0x2213, 0), (0x2214, 0), (0x2215, 0x20), (0x2216, 0x10)]

def exRam45 (a : W) : B := (exBytes.lookup a).getD 0

def exP : JPar := { base := 0x2000, reloc := 0x1234, prog := 0x2100, lbuf := 0x2213, top := 0x9C00 }

def exM45 : M :=
  { a := 0, x := 1, y := 2, c := true, z := false, n := false, v := false, stk := [.ret [], .byte 7], sl := fun _ => 0, sh := fun _ => 0, ram := exRam45,
    zp := ⟨1, 2, 3, 4, 5, 6, 7, 8, 9, 10, 11, 12, 13, 14, 0x88, 16, 17, 18, 19, 20, 21, 22, 0x80, 0x05, 0, 0, 0, 0, 0, 0, 0, 0, 0, 0, 0, 0, 0, 0, 0, 0, 0, 5, 0, 0x21⟩ }

def exN : NS :=
  { mem := fun a => (exRam45 (BitVec.ofNat 16 a)).toNat, cp := 0x2105, loops := [⟨65, 0x2000⟩], names := [[0x41, 0x42]], lab := [⟨0, 0, 0x2010⟩], last := 0 }

def exLs : List Rt.Ent := [⟨[0x41, 0x42], 0⟩]

theorem exHolds : Holds exP exLs exN exM45 := by
  refine ⟨⟨by decide, by decide, rfl, rfl, by decide, rfl, rfl, by decide, ⟨by decide, ?_, by decide⟩, rfl, rfl, rfl, fun a _ _ _ => rfl, rfl, by decide, ⟨rfl, rfl, rfl, trivial⟩, ?_, rfl, ⟨rfl, rfl, rfl, rfl, trivial⟩, rfl, ?_, by decide⟩,
    ⟨?_, ?_, rfl, ?_, by decide, rfl, rfl⟩⟩
  · intro i hi
    rcases (by omega : i = 0 ∨ i = 1 ∨ i = 2 ∨ i = 3) with rfl | rfl | rfl | rfl <;> decide
  · intro e he
    obtain rfl := List.mem_singleton.1 he
    exact ⟨by decide, by decide, by decide, by decide⟩
  · intro e he
    obtain rfl := List.mem_singleton.1 he
    exact ⟨by decide, by decide, by decide, by decide, by decide⟩
  · intro e he
    obtain rfl := List.mem_singleton.1 he
    exact ⟨by decide, by decide, by decide⟩
  · intro e he
    obtain rfl := List.mem_singleton.1 he
    decide
  · intro i hi
    have hi' : i < 3 := hi
    rcases (by omega : i = 0 ∨ i = 1 ∨ i = 2) with rfl | rfl | rfl <;> rfl

/-- `LOOP` closes the `DO`: the address `$3234` (`$2000` relocated) is in the line. -/
example : ∃ m', Reach (jmpCode 9 4 memCode) (jmpCode.E_POP_LOOP 9 4 memCode) exM45 [] m' ∧ m'.c = false ∧ m'.stk = [.byte 7] ∧ m'.zp.opos = 7 ∧ m'.ram 0x2105 = 0x34 ∧ m'.ram 0x2106 = 0x32 ∧
    m'.ram 0xB3 = 0 := by
  obtain ⟨m', r, c, s, H, -⟩ := (C45_action 9 4 (a := .POP_LOOP) rfl nofun nofun exHolds rfl nofun none).1 ⟨by decide, .inl rfl⟩
  refine ⟨m', r, c, s, BitVec.eq_of_toNat_eq ?_, BitVec.eq_of_toNat_eq ?_, BitVec.eq_of_toNat_eq ?_, BitVec.eq_of_toNat_eq ?_⟩
  · have := H.rep.cp
    have e : (NS.checkExit exP.reloc (NS.emitAddr exP.reloc { exN with loops := [] } 0x2000)).cp = 0x2107 := rfl
    rw [e] at this
    have h2 : exP.prog = 0x2100 := rfl
    show m'.jv.op.toNat = 7
    omega
  · exact (H.rep.mem 0x2105 (by decide) (by decide) (by decide)).symm
  · exact (H.rep.mem 0x2106 (by decide) (by decide) (by decide)).symm
  · exact H.rep.sp

/-- `WEND` does not: the compiler ends with the message. -/
example : Refuses 9 4 memCode (jmpCode.E_POP_WHILE 9 4 memCode) exM45 [] [.byte 7] :=
  C45_action 9 4 (a := .POP_WHILE) rfl nofun nofun exHolds rfl nofun none

/-- `PROC AB`, with last label 0: the word at `$2010` has the address of the procedure, and the list of addresses has its definition. -/
example : ∃ m', Reach (jmpCode 9 4 memCode) (jmpCode.E_LABEL_DEF 9 4 memCode) exM45 [] m' ∧ m'.c = false ∧ m'.ram 0x2010 = 0x3B ∧ m'.ram 0x2011 = 0x33 ∧ m'.ram 0x2217 = 0 ∧ m'.ram 0x2218 = 0x80 ∧
    m'.ram 0x2214 = 1 := by
  obtain ⟨m', r, c, s, H, -⟩ := (C45_action 9 4 (a := .LABEL_DEF) rfl nofun nofun exHolds rfl nofun none).1 ⟨by decide, .inr (by decide)⟩
  refine ⟨m', r, c, BitVec.eq_of_toNat_eq ?_, BitVec.eq_of_toNat_eq ?_, ?_, ?_, ?_⟩
  · exact (H.rep.mem 0x2010 (by decide) (by decide) (by decide)).symm
  · exact (H.rep.mem 0x2011 (by decide) (by decide) (by decide)).symm
  · exact H.rep.lab.2.2.2.2.1
  · exact H.rep.lab.2.2.2.2.2.1
  · exact H.rep.lab.2.1

theorem exIn45 : NameIn { exM45 with zp := { exM45.zp with cix := 4 } } 0 [0x41, 0x42] := by
  refine ⟨exIsName, 0x3D, exEnds, ?_, by decide⟩
  intro i hi
  have hi' : i < 3 := hi
  rcases (by omega : i = 0 ∨ i = 1 ∨ i = 2) with rfl | rfl | rfl <;> rfl

/-- `EXEC AB`: a new use of label 0, at `$2104` because the last byte, the type, is taken back. -/
example : ∃ m', Reach (jmpCode 9 4 memCode) (jmpCode.E_LABEL 9 4 memCode) { exM45 with zp := { exM45.zp with cix := 4 } } [] m' ∧ m'.c = false ∧ m'.zp.cix = 6 ∧
    m'.ram 0x2218 = 0 ∧ m'.ram 0x2219 = 0x21 ∧ m'.ram 0x221A = 0x04 := by
  have H0 : Holds exP exLs exN { exM45 with zp := { exM45.zp with cix := 4 } } := ⟨exHolds.rep.zp rfl rfl rfl, exHolds.names⟩
  obtain ⟨m', r, c, s, H, -, x⟩ := (C45_label 9 4 H0 rfl exIn45 ⟨by decide, by decide⟩).1 ⟨by decide, .inr (by decide)⟩
  refine ⟨m', r, c, BitVec.eq_of_toNat_eq x, ?_, ?_, ?_⟩
  · exact H.rep.lab.2.2.2.2.2.1
  · exact H.rep.lab.2.2.2.2.2.2.1
  · exact H.rep.lab.2.2.2.2.2.2.2.1

/-- `PROC CD`: label 1. -/
example : ∃ m', Reach (jmpCode 9 4 memCode) memCode.label_create exM45 [] m' ∧ m'.c = false ∧ m'.zp.cix = 3 ∧ m'.ram lastLabel = 1 ∧ m'.ram lblCount = 2 ∧ m'.ram 0x2213 = 0x43 ∧ m'.ram 0x2214 = 0xC4 := by
  have hN : NameIn exM45 1 [0x43, 0x44] := by
    refine ⟨⟨0x43, [0x44], rfl, by decide, by decide⟩, 0x3A, ?_, ?_, by decide⟩
    · refine ⟨by decide, by unfold Dot; decide, ?_⟩
      intro e he
      unfold NameChar at he
      show (58 % 128 : Nat) ≠ _
      omega
    · intro i hi
      have hi' : i < 4 := hi
      rcases (by omega : i = 0 ∨ i = 1 ∨ i = 2 ∨ i = 3) with rfl | rfl | rfl | rfl <;> rfl
  have key := C45_create 9 4 exHolds rfl hN (by decide) (by decide) ⟨by decide, by decide⟩
  rw [if_pos (.inr (by decide))] at key
  obtain ⟨m', n', p', ls', e, hp, r, c, s, H, -, x⟩ := key
  rw [if_neg (by decide)] at hp
  obtain ⟨rfl, rfl⟩ := hp
  cases e
  have p2 : ptr m'.ram 2 = 0x2210 := by
    have h := H.names.hi
    apply BitVec.eq_of_toNat_eq
    rw [show (table (exLs ++ [⟨[0x43, 0x44], 0⟩])).length = 6 from rfl] at h
    have h : (ptr m'.ram 2).toNat + 6 = 0x2216 := h
    show _ = 0x2210
    omega
  refine ⟨m', r, c, BitVec.eq_of_toNat_eq x, BitVec.eq_of_toNat_eq H.rep.last, BitVec.eq_of_toNat_eq H.names.count, ?_, ?_⟩
  · have h := H.names.text 3 (by decide)
    rw [p2] at h; exact h
  · have h := H.names.text 4 (by decide)
    rw [p2] at h; exact h

/-- At the colon there is no name. -/
example : Refuses 9 4 memCode memCode.label_create { exM45 with zp := { exM45.zp with cix := 3 } } [] [.byte 7] := by
  have H0 : Holds exP exLs exN { exM45 with zp := { exM45.zp with cix := 3 } } := ⟨exHolds.rep.zp rfl rfl rfl, exHolds.names⟩
  refine (C45_no_name 9 4 (a := .LABEL_CREATE) rfl (.inr rfl) H0 rfl (b := 0) ⟨0x3A, by decide, by decide, ?_, by decide⟩ ⟨by decide, by decide⟩).2
  intro i hi
  have hi' : i < 1 := hi
  obtain rfl : i = 0 := by omega
  rfl

end FB.Eng
