import Verif.Eng.VNew
import Verif.Props.C45
/-!
# C47: the actions on variables of the native compiler, as 6502 code

The routines of `/repo/src/actions.asm:312-375,414-422,623-639` do to the memory of the machine what `VAct.run` (`Eng/Vars.lean`) says, and so the variables of a program keep their number, their
type and their memory.
-/
namespace FB.Eng
open FB.Rt

section
variable (err lerr : B)
local notation "Q" => jmpCode err lerr memCode

/-- The routine of each action, `E_NAME` in `actions.asm`. -/
def VAct.entry : VAct → Code
  | .search => varCode.E_VAR_SEARCH Q
  | .word => varCode.E_VAR_WORD Q
  | .create => varCode.E_VAR_CREATE Q
  | .setType => varCode.E_VAR_SET_TYPE Q
  | .labelType => varCode.E_LABEL_SET_TYPE Q
  | .push => jmpCode.E_PUSH_VAR err lerr memCode
  | .pop => jmpCode.E_POP_VAR err lerr memCode

end

/-- What the tables of the parser grant before each action: a byte of code to take, a variable or label without type to give a type to, a variable to take from the stack. A program has less than
255 variables and a line less than 130 characters in a name (the other cases are refuted in C38), and the names are below the memory areas. -/
def VAct.Pre (base : Nat) (s : VS) (w : Word) (p : W) : VAct → Prop
  | .search => 0 < s.op
  | .word => True
  | .create => w.text.length ≤ 129 ∧ (w.text ≠ [] → TextLow base p w.text) ∧ slotsOf s.vs < 255
  | .setType => 0 < s.op ∧ (∃ us e, s.vs = us ++ [e] ∧ e.ty.toNat < 128) ∧ slotsOf s.vs + 2 < 256
  | .labelType => 0 < s.op ∧ (∃ us e, s.ls = us ++ [e] ∧ e.ty.toNat < 128) ∧ s.last.toNat < 128
  | .push => 0 < s.op ∧ s.stk.length < 128
  | .pop => s.stk ≠ []

/-- The actions that read a name. -/
def VAct.reads : VAct → Bool
  | .search | .word | .create => true
  | _ => false

section
variable (err lerr : B) {base : Nat} {s : VS} {m : M} {k : Code} {st : List Slot} {w : Word} {n : Nat}

/-- **C47**: each routine, called with `C` clear, does what its action does: it returns with `C` clear and the new state in memory, or with `C` set if the action fails, or the compiler ends with an
error because the code of the statement is too long or there is no more memory. It reads the name, and nothing more. -/
theorem C47_action (a : VAct) (h : VRep base s m.jv) (hs : m.stk = .ret k :: st) (hc : m.c = false) (hw : NextIs m w n)
    (hp : a.Pre base s w (idx m.bp m.zp.cix + BitVec.ofNat 16 (n - w.text.length))) :
    Does47 err lerr base (a.run base (memTop m.ram).toNat s w) (if a.reads then n else 0) (a.entry err lerr) m k st := by
  cases a with
  | search => exact v_SEARCH err lerr h hs hw hp
  | word => exact v_WORD err lerr h hs hw
  | create => exact v_CREATE err lerr h hs hw hp.1 hp.2.1 hp.2.2
  | setType => exact v_SETTYPE err lerr h hs hp.1 hp.2.1 hp.2.2
  | labelType => exact v_LABELTYPE err lerr h hs hc hp.1 hp.2.1 hp.2.2
  | push => exact v_PUSH err lerr h hs hc hp.1 hp.2
  | pop => exact v_POP err lerr h hs hc hp

end

/-! ## What this means for a program -/

/-- The state after an action. -/
def VOut.state : VOut → Option VS
  | .ok s => some s
  | .fail s => some s
  | _ => none

theorem lookup_append (N : List B) (us es : List Rt.Ent) : lookup N (us ++ es) = match lookup N us with
    | some p => some p
    | none => (lookup N es).map fun p => (slotsOf us + p.1, p.2) := by
  induction us with
  | nil => simp [lookup, slotsOf]
  | cons e us ih =>
    simp only [List.cons_append, lookup, ih]
    by_cases h : e.name = N
    · simp [h]
    · simp only [if_neg h]
      cases lookup N us with
      | some p => simp
      | none =>
        cases lookup N es with
        | none => simp
        | some p => simp [slotsOf, Nat.add_assoc]

theorem VS.emit_vs {s s' : VS} {b : B} (h : (s.emit b).state = some s') : s'.vs = s.vs := by
  unfold VS.emit at h
  split at h <;> simp [VOut.state] at h
  rw [← h]

theorem VS.use_vs {s s' : VS} {w : Word} {t : B} (h : (s.use w t).state = some s') : s'.vs = s.vs := by
  unfold VS.use at h
  split at h
  · split at h
    · split at h
      · exact VS.emit_vs h
      · simp [VOut.state] at h; rw [← h]
    · simp [VOut.state] at h; rw [← h]
  · simp [VOut.state] at h; rw [← h]

/-- **C47**: a variable keeps its number and its type: no action changes what is found with a name, except that a type is given to the last variable of the table. -/
theorem C47_kept {base top : Nat} {s s' : VS} {w : Word} {a : VAct} {N : List B} {i : Nat} {t : B} (h : (a.run base top s w).state = some s') (hl : lookup N s.vs = some (i, t))
    (hx : a = .setType → ∃ us e, s.vs = us ++ [e] ∧ (lookup N us).isSome) : lookup N s'.vs = some (i, t) := by
  have add : ∀ M, (s.add base top M).state = some s' → lookup N s'.vs = some (i, t) := by
    intro M h
    unfold VS.add at h
    split at h
    · rw [VS.emit_vs h]
      show lookup N (s.vs ++ _) = _
      rw [lookup_append, hl]
    · simp [VOut.state] at h
  cases a with
  | search => rw [VS.use_vs h]; exact hl
  | word => rw [VS.use_vs h]; exact hl
  | create =>
    unfold VAct.run at h
    cases w with
    | name M =>
      simp only at h
      split at h
      · simp [VOut.state] at h; rw [← h]; exact hl
      · exact add M h
    | dotted M => exact add M h
    | none => simp [VOut.state] at h; rw [← h]; exact hl
  | setType =>
    obtain ⟨us, e, hv, hu⟩ := hx rfl
    obtain ⟨p, hp⟩ := Option.isSome_iff_exists.1 hu
    have e1 : s'.vs = retype s.vs s.last := by
      simp only [VAct.run] at h
      split at h <;> (simp [VOut.state] at h; rw [← h])
    rw [hv, lookup_append, hp] at hl
    rw [e1, hv, retype_last, lookup_append, hp]
    exact hl
  | labelType => simp [VAct.run, VOut.state] at h; rw [← h]; exact hl
  | push => simp [VAct.run, VOut.state] at h; rw [← h]; exact hl
  | pop => rw [VS.emit_vs h]; exact hl

/-- **C47**: a variable that is created and given a type is found with that type, and its number is the count of words of the variables before. -/
theorem C47_declared {base top : Nat} {s s1 s2 : VS} {N : List B} {t : B} (h : VAct.run base top s (.name N) .create = .ok s1) (hr : s.op < s.buf.length) (hb : s2.vs = s1.vs) (ht : s2.last = t) {w : Word} {s3 : VS}
    (h2 : (VAct.run base top s2 w .setType).state = some s3) : lookup N s3.vs = some (slotsOf s.vs, t) ∧ s1.last = BitVec.ofNat 8 (slotsOf s.vs) := by
  simp only [VAct.run] at h
  split at h
  · cases h
  rename_i hx
  unfold VS.add at h
  split at h
  · unfold VS.emit at h
    split at h
    · injection h with h
      have e1 : s1.vs = s.vs ++ [⟨N, 0⟩] := by rw [← h]
      have e3 : s3.vs = retype s2.vs s2.last := by
        simp only [VAct.run] at h2
        split at h2 <;> (simp [VOut.state] at h2; rw [← h2])
      have hn : lookup N s.vs = none := by
        cases hq : lookup N s.vs with
        | none => rfl
        | some q => exact absurd (lookup_has.2 ⟨q, hq⟩) hx
      refine ⟨?_, ?_⟩
      · rw [e3, hb, e1, retype_last, ht, lookup_append, hn]
        simp [lookup]
      · rw [← h]
        show (s.buf.set s.op _).getD (s.op + 1 - 1) 0 = _
        rw [Nat.add_sub_cancel, List.getD_eq_getElem?_getD, List.getElem?_set]
        simp [hr]
    · cases h
  · cases h

/-- The words of memory of a variable. -/
def holdsSlot (i : Nat) (t : B) (k : Nat) : Prop := i ≤ k ∧ k < i + if 128 ≤ t.toNat then 3 else 1

/-- **C47**: two names never share memory. -/
theorem C47_apart {vs : List Rt.Ent} {N M : List B} {i j : Nat} {t u : B} (h1 : lookup N vs = some (i, t)) (h2 : lookup M vs = some (j, u)) (hne : N ≠ M) {k : Nat} (hk : holdsSlot i t k) :
    ¬ holdsSlot j u k := by
  induction vs generalizing i j k with
  | nil => simp [lookup] at h1
  | cons e es ih =>
    simp only [lookup] at h1 h2
    by_cases hN : e.name = N
    · rw [if_pos hN] at h1
      rw [if_neg (fun hM => hne (hN.symm.trans hM))] at h2
      simp only [Option.some.injEq, Prod.mk.injEq] at h1
      obtain ⟨rfl, rfl⟩ := h1
      cases hq : lookup M es with
      | none => rw [hq] at h2; simp at h2
      | some q =>
        rw [hq] at h2
        simp only [Option.map_some, Option.some.injEq, Prod.mk.injEq] at h2
        obtain ⟨rfl, -⟩ := h2
        simp only [holdsSlot, Ent.slots] at hk ⊢
        omega
    · rw [if_neg hN] at h1
      cases hq : lookup N es with
      | none => rw [hq] at h1; simp at h1
      | some q =>
        rw [hq] at h1
        simp only [Option.map_some, Option.some.injEq, Prod.mk.injEq] at h1
        obtain ⟨rfl, rfl⟩ := h1
        by_cases hM : e.name = M
        · rw [if_pos hM] at h2
          simp only [Option.some.injEq, Prod.mk.injEq] at h2
          obtain ⟨rfl, rfl⟩ := h2
          simp only [holdsSlot, Ent.slots] at hk ⊢
          omega
        · rw [if_neg hM] at h2
          cases hq' : lookup M es with
          | none => rw [hq'] at h2; simp at h2
          | some q' =>
            rw [hq'] at h2
            simp only [Option.map_some, Option.some.injEq, Prod.mk.injEq] at h2
            obtain ⟨rfl, rfl⟩ := h2
            have := ih (i := q.1) (j := q'.1) (k := k - e.slots) hq hq' (by simp only [holdsSlot] at hk ⊢; omega)
            simp only [holdsSlot] at hk this ⊢
            omega

/-- **C47 is false of the names with a dot**: `E_VAR_CREATE` makes a variable of a name that is followed by a dot, also if there is one with that name already; `vars.asm:187` says that these names are
rejected, and the search of variables does reject them. (The rest of the statement does not match the dot, so that the compiler ends with an error on these lines.) -/
theorem C47_dot_refuted {base top : Nat} {s : VS} {N : List B} (hf : base + s.areas.flatten.length + N.length + 1 < top) (ho : s.op < 255) :
    (∃ s', VAct.run base top s (.dotted N) .create = .ok s' ∧ s'.vs = s.vs ++ [⟨N, 0⟩]) ∧ VAct.run base top s (.dotted N) .word = .fail s := by
  refine ⟨⟨{ s with vs := s.vs ++ [⟨N, 0⟩], buf := s.buf.set s.op (BitVec.ofNat 8 (slotsOf s.vs)), op := s.op + 1 }, ?_, rfl⟩, rfl⟩
  simp only [VAct.run, VS.add]
  rw [if_pos hf, VS.emit, if_pos ho]

/-- **C47 is false of the labels of `DATA`**: `E_LABEL_SET_TYPE` gives the type to the last label of the table, whatever the last label found or created is (`last_label`). After `EXEC FOO` and
`EXEC BAR`, the type of `DATA FOO() = ...` is the one of `BAR`, and `FOO` has none. -/
theorem C47_label_type_refuted (err lerr : B) {base : Nat} {s : VS} {m : M} {k : Code} {st : List Slot} {F G : List B} (hFG : F ≠ G) (h : VRep base s m.jv) (hs : m.stk = .ret k :: st) (hc : m.c = false)
    (hl : s.ls = [⟨F, 0⟩, ⟨G, 0⟩]) (ho : 0 < s.op) (ht : s.last.toNat < 128) (_ : m.ram lastLabel = 0) :
    ∃ m' s', Reach (natCode err lerr) (varCode.E_LABEL_SET_TYPE (jmpCode err lerr memCode)) m k m' ∧ m'.c = false ∧ VRep base s' m'.jv ∧ lookup F s'.ls = some (0, 0) ∧ lookup G s'.ls = some (1, s.last) := by
  obtain ⟨m', r, c, _, R, _, _⟩ := v_LABELTYPE err lerr h hs hc ho ⟨[⟨F, 0⟩], ⟨G, 0⟩, hl, by show (0 : Nat) < 128; omega⟩ ht
  refine ⟨m', _, r, c, R, ?_, ?_⟩
  · show lookup F (retype s.ls s.last) = _
    rw [hl]; simp [retype, lookup]
  · show lookup G (retype s.ls s.last) = _
    rw [hl]; simp [retype, lookup, hFG, Ent.slots]

/-! ## Examples -/

/-- A memory with any state of the compiler from `$2000`, and any line at `$580`. -/
def ram47 (s : VS) (t : List B) : W → B := fun a =>
  if 0x2000 ≤ a.toNat then s.areas.flatten.getD (a.toNat - 0x2000) 0
  else if 0xA2 ≤ a.toNat ∧ a.toNat ≤ 0xAB then
    BitVec.ofNat 8 ((0x2000 + (s.areas.take ((a.toNat - 0xA2) / 2 + 1)).flatten.length) / (if a.toNat % 2 = 0 then 1 else 256))
  else if a.toNat = 0xAE then BitVec.ofNat 8 (slotsOf s.vs)
  else if a.toNat = 0xAF then BitVec.ofNat 8 (slotsOf s.ls)
  else if a.toNat = 0xB5 then BitVec.ofNat 8 s.stk.length
  else if a.toNat = 0x2E6 then 0x9C
  else if 0x480 ≤ a.toNat ∧ a.toNat < 0x500 then s.stk.reverse.getD (a.toNat - 0x480) 0
  else if 0x580 ≤ a.toNat then t.getD (a.toNat - 0x580) 155
  else 0

/-- The machine, in position 3 of the line. -/
def exM47 (s : VS) (t : List B) : M :=
  let p := 0x2000 + s.prog.length
  { exM45 with c := false, ram := ram47 s t, zp := { exM45.zp with inb := 0x80, inbh := 0x05, cix := 3, opos := BitVec.ofNat 8 s.op, prgp := BitVec.ofNat 8 p, prgph := BitVec.ofNat 8 (p / 256) } }

/-- Any state of the compiler is in some memory. -/
theorem exRep47 (s : VS) (t : List B) (h1 : ∀ e ∈ s.vs, e.Ok) (h2 : ∀ e ∈ s.ls, e.Ok) (h3 : slotsOf s.vs < 256) (h4 : slotsOf s.ls < 256) (h5 : 256 ≤ s.buf.length) (h6 : s.op < 256)
    (h7 : s.stk.length ≤ 128) (h8 : 0x2000 + s.areas.flatten.length ≤ 0x9C00) : VRep 0x2000 s (exM47 s t).jv := by
  have pt : ∀ j ≤ 4, (ptr (ram47 s t) j).toNat = 0x2000 + (s.areas.take (j + 1)).flatten.length := by
    intro j hj
    have hle : (s.areas.take (j + 1)).flatten.length ≤ s.areas.flatten.length := by
      have := congrArg List.length (congrArg List.flatten (List.take_append_drop (j + 1) s.areas))
      rw [List.flatten_append, List.length_append] at this
      omega
    have e1 : (memStart + BitVec.ofNat 16 (2 * j)).toNat = 162 + 2 * j := by simp; omega
    have e2 : (memStart + BitVec.ofNat 16 (2 * j + 1)).toNat = 162 + (2 * j + 1) := by simp; omega
    have a1 : ram47 s t (memStart + BitVec.ofNat 16 (2 * j)) = BitVec.ofNat 8 (0x2000 + (s.areas.take (j + 1)).flatten.length) := by
      simp only [ram47, e1]
      rw [if_neg (by omega), if_pos (by omega), if_pos (by omega), show (162 + 2 * j - 162) / 2 = j by omega, Nat.div_one]
    have a2 : ram47 s t (memStart + BitVec.ofNat 16 (2 * j + 1)) = BitVec.ofNat 8 ((0x2000 + (s.areas.take (j + 1)).flatten.length) / 256) := by
      simp only [ram47, e2]
      rw [if_neg (by omega), if_pos (by omega), if_neg (by omega), show (162 + (2 * j + 1) - 162) / 2 = j by omega]
    unfold ptr word
    rw [a1, a2]
    simp only [BitVec.toNat_ofNat]
    generalize (s.areas.take (j + 1)).flatten.length = L at *
    omega
  have mt : (memTop (ram47 s t)).toNat = 0x9C00 := by
    have a1 : ram47 s t 0x2E5 = 0 := by simp [ram47]
    have a2 : ram47 s t 0x2E6 = 0x9C := by simp [ram47]
    show (word (ram47 s t 0x2E5) (ram47 s t 0x2E6)).toNat = _
    rw [a1, a2]; decide
  have lay : Lays (ram47 s t) 0x2000 s.areas := by
    refine ⟨rfl, by decide, by omega, pt, ?_⟩
    intro i hi
    have : (BitVec.ofNat 16 (0x2000 + i)).toNat = 0x2000 + i := by rw [BitVec.toNat_ofNat]; omega
    simp only [ram47, this]
    rw [if_pos (by omega), Nat.add_sub_cancel_left, List.getD_eq_getElem?_getD, List.getElem?_eq_getElem hi]
    rfl
  refine ⟨⟨lay, rfl, rfl, h1, h2, ?_, ?_⟩, by decide, h5, ?_, rfl, ?_, ?_, ?_, ?_, h7, ?_⟩
  · show (BitVec.ofNat 8 (slotsOf s.vs)).toNat = _
    rw [BitVec.toNat_ofNat]; omega
  · show (BitVec.ofNat 8 (slotsOf s.ls)).toNat = _
    rw [BitVec.toNat_ofNat]; omega
  · apply BitVec.eq_of_toNat_eq
    have := pt 0 (by omega)
    show (word _ _).toNat = (ptr (ram47 s t) 0).toNat
    rw [this]
    show (word (BitVec.ofNat 8 (0x2000 + s.prog.length)) (BitVec.ofNat 8 ((0x2000 + s.prog.length) / 256))).toNat = _
    have hb : s.prog.length ≤ s.areas.flatten.length := by simp only [VS.areas, List.flatten_cons, List.length_append]; omega
    rw [word_pos (by omega), BitVec.toNat_ofNat]
    simp [VS.areas]
    omega
  · show (memTop (ram47 s t)).toNat ≤ _
    rw [mt]; decide
  · show _ ≤ (memTop (ram47 s t)).toNat
    rw [mt]; exact h8
  · show (BitVec.ofNat 8 s.op).toNat = _
    rw [BitVec.toNat_ofNat]; omega
  · show (BitVec.ofNat 8 s.stk.length).toNat = _
    rw [BitVec.toNat_ofNat]; omega
  · intro i hi
    have e : (BitVec.ofNat 16 (0x480 + i)).toNat = 0x480 + i := by rw [BitVec.toNat_ofNat]; omega
    show ram47 s t _ = _
    simp only [ram47, e]
    rw [if_neg (by omega), if_neg (by omega), if_neg (by omega), if_neg (by omega), if_neg (by omega), if_neg (by omega), if_pos (by omega), Nat.add_sub_cancel_left, List.getD_eq_getElem?_getD,
      List.getElem?_eq_getElem (by rw [List.length_reverse]; exact hi)]
    rfl

/-- The text from position 3 of the line. -/
theorem exText47 (s : VS) (t : List B) (ht : t.length ≤ 250) : TextAt (exM47 s ([1, 2, 3] ++ t)).ram (idx (exM47 s ([1, 2, 3] ++ t)).bp (exM47 s ([1, 2, 3] ++ t)).zp.cix) t := by
  intro i hi
  have e : (0x583#16 + BitVec.ofNat 16 i).toNat = 0x583 + i := by rw [BitVec.toNat_add, BitVec.toNat_ofNat, BitVec.toNat_ofNat]; omega
  have e0 : idx (exM47 s ([1, 2, 3] ++ t)).bp (exM47 s ([1, 2, 3] ++ t)).zp.cix = 0x583#16 := by
    show idx (word 0x80#8 0x05#8) 3#8 = _
    decide
  rw [e0]
  show ram47 s _ (0x583#16 + BitVec.ofNat 16 i) = _
  simp only [ram47, e]
  rw [if_neg (by omega), if_neg (by omega), if_neg (by omega), if_neg (by omega), if_neg (by omega), if_neg (by omega), if_neg (by omega), if_pos (by omega), show 0x583 + i - 0x580 = 3 + i by omega,
    List.getD_eq_getElem?_getD, List.getElem?_append_right (by simp)]
  simp [hi]

/-- Two variables, `AB` of type `VT_WORD` and `X` of type `VT_FLOAT`; the labels `FOO` and `BAR`; the last byte of the code is `VT_WORD`. -/
def exS47 : VS :=
  { prog := [1, 2], buf := [7, 9, 1] ++ List.replicate 253 0, op := 3, vs := [⟨[0x41, 0x42], 1⟩, ⟨[0x58], 0xFB⟩], ls := [⟨[0x46, 0x4F, 0x4F], 0⟩, ⟨[0x42, 0x41, 0x52], 0⟩], lad := [], stk := [5, 6] }

theorem exOk47 (t : List B) : VRep 0x2000 exS47 (exM47 exS47 t).jv := by
  refine exRep47 exS47 t ?_ ?_ (by decide +kernel) (by decide +kernel) (by decide +kernel) (by decide +kernel) (by decide +kernel) (by decide +kernel) <;>
  · intro e he
    simp only [exS47, List.mem_cons, List.not_mem_nil, or_false] at he
    rcases he with rfl | rfl <;> exact ⟨by decide +kernel, by decide +kernel, by decide +kernel⟩

theorem exName47 (s : VS) (N : List B) (c : B) (hN : IsName N) (hc : NameEnds c) (hl : N.length ≤ 100) : NextIs (exM47 s ([1, 2, 3] ++ (32 :: N ++ [c]))) (.name N) (1 + N.length) :=
  .name 1 N ⟨hN, c, hc, exText47 s (32 :: N ++ [c]) (by simp; omega), by show 3 + 1 + _ < 256; omega⟩

theorem exEnds47 : NameEnds 0x2B ∧ NameEnds 0x3D := by
  refine ⟨⟨by decide, by unfold Dot; decide, ?_⟩, ⟨by decide, by unfold Dot; decide, ?_⟩⟩ <;>
  · intro e he
    unfold NameChar at he
    first
    | show (43 % 128 : Nat) ≠ _
      omega
    | show (61 % 128 : Nat) ≠ _
      omega

/-- With the new variable `CD`. -/
def exC47 : VS := { exS47 with vs := exS47.vs ++ [⟨[0x43, 0x44], 0⟩], buf := exS47.buf.set 3 4, op := 4 }

theorem exCreate47 (top : Nat) (h : 0x2117 < top) : VAct.run 0x2000 top exS47 (.name [0x43, 0x44]) .create = .ok exC47 := by
  have hl : exS47.areas.flatten.length = 0x10F := by decide +kernel
  simp only [VAct.run]
  rw [if_neg (by decide +kernel), VS.add, hl, if_pos (by simp; omega), VS.emit, if_pos (by decide)]
  rfl

/-- ` AB+`: the byte `VT_WORD` is replaced by the number of the variable. -/
example : ∃ m', Reach (natCode 9 4) (VAct.entry 9 4 .search) (exM47 exS47 ([1, 2, 3] ++ (32 :: [0x41, 0x42] ++ [0x2B]))) [] m' ∧ m'.c = false ∧ m'.stk = [.byte 7] ∧ m'.zp.cix = 6 ∧ m'.zp.opos = 3 ∧ m'.ram 0x2004 = 0 := by
  obtain ⟨m', r, c, s, R, _, x⟩ := C47_action 9 4 .search (exOk47 _) rfl rfl (exName47 exS47 [0x41, 0x42] 0x2B ⟨0x41, [0x42], rfl, by decide +kernel, by decide +kernel⟩ exEnds47.1 (by decide +kernel)) (show 0 < 3 by decide)
  refine ⟨m', r, c, s, BitVec.eq_of_toNat_eq x, BitVec.eq_of_toNat_eq R.op, ?_⟩
  exact (R.tabs.lays.bytes 4 (by decide +kernel)).trans (by decide +kernel)

set_option maxRecDepth 20000 in
/-- ` CD=`: a new variable, with number 4. -/
example : ∃ m', Reach (natCode 9 4) (VAct.entry 9 4 .create) (exM47 exS47 ([1, 2, 3] ++ (32 :: [0x43, 0x44] ++ [0x3D]))) [] m' ∧ m'.c = false ∧ m'.ram varCount = 5 ∧ m'.ram 0x2005 = 4 ∧ m'.ram 0x2107 = 0x43 ∧
    m'.ram 0x2108 = 0xC4 ∧ m'.ram 0x2109 = 0 := by
  have key := C47_action 9 4 .create (exOk47 _) rfl rfl (exName47 exS47 [0x43, 0x44] 0x3D ⟨0x43, [0x44], rfl, by decide +kernel, by decide +kernel⟩ exEnds47.2 (by decide +kernel))
    ⟨by decide +kernel, fun _ => ⟨by decide +kernel, by decide +kernel⟩, by decide +kernel⟩
  rw [exCreate47 _ (by decide +kernel)] at key
  obtain ⟨m', r, c, s, R, _, x⟩ := key
  exact ⟨m', r, c, BitVec.eq_of_toNat_eq R.tabs.vcount, (R.tabs.lays.bytes 5 (by decide +kernel)).trans (by decide +kernel), (R.tabs.lays.bytes 0x107 (by decide +kernel)).trans (by decide +kernel), (R.tabs.lays.bytes 0x108 (by decide +kernel)).trans (by decide +kernel), (R.tabs.lays.bytes 0x109 (by decide +kernel)).trans (by decide +kernel)⟩

/-- The type of a new variable: `VT_FLOAT` takes two words more; the action fails, for the parser to use the variable then. -/
def exT47 : VS := { exS47 with vs := [⟨[0x41, 0x42], 1⟩, ⟨[0x58], 0⟩], buf := [7, 1, 0xFB] ++ List.replicate 253 0 }

theorem exOkT47 (t : List B) : VRep 0x2000 exT47 (exM47 exT47 t).jv := by
  refine exRep47 exT47 t ?_ ?_ (by decide +kernel) (by decide +kernel) (by decide +kernel) (by decide +kernel) (by decide +kernel) (by decide +kernel) <;>
  · intro e he
    simp only [exT47, exS47, List.mem_cons, List.not_mem_nil, or_false] at he
    rcases he with rfl | rfl <;> exact ⟨by decide +kernel, by decide +kernel, by decide +kernel⟩

example : ∃ m', Reach (natCode 9 4) (VAct.entry 9 4 .setType) (exM47 exT47 ([1, 2, 3] ++ (32 :: [0x43] ++ [0x3D]))) [] m' ∧ m'.c = true ∧ m'.ram varCount = 4 ∧ m'.zp.opos = 2 ∧ m'.ram 0x2106 = 0xFB := by
  obtain ⟨m', r, c, s, R, _, x⟩ := C47_action 9 4 .setType (exOkT47 _) rfl rfl (exName47 exT47 [0x43] 0x3D ⟨0x43, [], rfl, by decide +kernel, by decide +kernel⟩ exEnds47.2 (by decide +kernel))
    ⟨by decide +kernel, ⟨[⟨[0x41, 0x42], 1⟩], ⟨[0x58], 0⟩, rfl, by decide +kernel⟩, by decide +kernel⟩
  exact ⟨m', r, c, BitVec.eq_of_toNat_eq R.tabs.vcount, BitVec.eq_of_toNat_eq R.op, (R.tabs.lays.bytes 0x106 (by decide +kernel)).trans (by decide +kernel)⟩

/-- The number 4 of the new variable goes to the stack, and back to the code. -/
example : ∃ m', Reach (natCode 9 4) (VAct.entry 9 4 .push) (exM47 exS47 ([1, 2, 3] ++ (32 :: [0x43] ++ [0x3D]))) [] m' ∧ m'.c = false ∧ m'.ram varSp = 3 ∧ m'.ram 0x482 = 1 ∧ m'.zp.opos = 2 := by
  obtain ⟨m', r, c, s, R, _, x⟩ := C47_action 9 4 .push (exOk47 _) rfl rfl (exName47 exS47 [0x43] 0x3D ⟨0x43, [], rfl, by decide +kernel, by decide +kernel⟩ exEnds47.2 (by decide +kernel)) ⟨by decide +kernel, by decide +kernel⟩
  exact ⟨m', r, c, BitVec.eq_of_toNat_eq R.sp, R.vst 2 (by decide +kernel), BitVec.eq_of_toNat_eq R.op⟩

example : ∃ m', Reach (natCode 9 4) (VAct.entry 9 4 .pop) (exM47 exS47 ([1, 2, 3] ++ (32 :: [0x43] ++ [0x3D]))) [] m' ∧ m'.c = false ∧ m'.ram varSp = 1 ∧ m'.ram 0x2005 = 5 ∧ m'.zp.opos = 4 := by
  obtain ⟨m', r, c, s, R, _, x⟩ := C47_action 9 4 .pop (exOk47 _) rfl rfl (exName47 exS47 [0x43] 0x3D ⟨0x43, [], rfl, by decide +kernel, by decide +kernel⟩ exEnds47.2 (by decide +kernel)) (show exS47.stk ≠ [] by decide)
  exact ⟨m', r, c, BitVec.eq_of_toNat_eq R.sp, (R.tabs.lays.bytes 5 (by decide +kernel)).trans (by decide +kernel), BitVec.eq_of_toNat_eq R.op⟩

/-- `DATA FOO() = ...` after `EXEC FOO` and `EXEC BAR`. -/
example : ∃ m' s', Reach (natCode 9 4) (VAct.entry 9 4 .labelType) (exM47 exS47 [1]) [] m' ∧ m'.c = false ∧ VRep 0x2000 s' m'.jv ∧ lookup [0x46, 0x4F, 0x4F] s'.ls = some (0, 0) ∧
    lookup [0x42, 0x41, 0x52] s'.ls = some (1, 1) :=
  C47_label_type_refuted 9 4 (by decide +kernel) (exOk47 _) rfl rfl rfl (by decide +kernel) (by decide +kernel) rfl

/-- The declaration of `CD`, and the memory of `AB` and `X`. -/
example : ∃ s3, VAct.run 0x2000 0x9C00 exS47 (.name [0x43, 0x44]) .create = .ok exC47 ∧ (VAct.run 0x2000 0x9C00 { exC47 with buf := exC47.buf.set 4 5, op := 5 } .none .setType).state = some s3 ∧
    lookup [0x43, 0x44] s3.vs = some (4, 5) ∧ lookup [0x58] s3.vs = some (1, 0xFB) := by
  have h := exCreate47 0x9C00 (by decide)
  have e : (VAct.run 0x2000 0x9C00 { exC47 with buf := exC47.buf.set 4 5, op := 5 } .none .setType).state = some { exC47 with vs := retype exC47.vs 5, buf := exC47.buf.set 4 5, op := 4 } := rfl
  refine ⟨_, h, e, ?_, ?_⟩
  · exact (C47_declared (w := .none) (t := 5) h (by decide +kernel) rfl (s2 := { exC47 with buf := exC47.buf.set 4 5, op := 5 }) rfl e).1
  · exact C47_kept (a := .setType) e rfl (fun _ => ⟨exS47.vs, ⟨[0x43, 0x44], 0⟩, rfl, rfl⟩)

example : ¬ holdsSlot 0 1 1 := C47_apart (vs := exS47.vs) (N := [0x58]) (M := [0x41, 0x42]) rfl rfl (by decide +kernel) ⟨Nat.le_refl 1, by decide +kernel⟩

end FB.Eng
