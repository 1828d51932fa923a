import Verif.Native.Layout

/-!
# The stacks of loops of both compilers

`Frame` is one structure open in both compilers. `Inv` is the invariant of the two compilers running
side by side. Auxiliary to C25.
-/

namespace FB.Native

open FB.Parse

/-- What matters of the state of the cross compiler: code of each procedure, open structures, open
procedures, number of labels made, and the last label named. -/
@[ext] structure X where
  C : Str → List CW
  jumps : List Jump
  stack : List Str
  num : Nat
  last : Str

/-- The part of the state of the cross compiler that matters. -/
def X.of (s : PS) : X := ⟨codeOf s, s.jumps, s.procStack, s.labelNum, s.lastLabel⟩

/-- The procedure being compiled. -/
def X.cur (x : X) : Str := x.stack.head?.getD []

/-- A code added at the end. -/
def X.emit (x : X) (c : CW) : X := { x with C := fun q => if x.cur = q then c :: x.C q else x.C q }

/-- The last code removed. -/
def X.drop (x : X) : X := { x with C := fun q => if x.cur = q then (x.C q).tail else x.C q }

theorem X.of_emit (s : PS) (k : CK) : X.of (s.emit k) = (X.of s).emit ⟨k, s.linenum⟩ := by
  ext1 <;> try rfl
  funext q
  show codeOf (s.emit k) q = if s.curProc = q then _ else _
  split
  · next h => subst h; exact emit_code s k
  · next h => exact emit_codeOf s k (Ne.symm h)

theorem X.of_tail {s : PS} {c : CW} {cs : List CW} (h : s.code = c :: cs) : X.of (s.setCode cs) = (X.of s).drop := by
  ext1 <;> try rfl
  funext q
  show codeOf (s.setCode cs) q = if s.curProc = q then _ else _
  split
  · next g =>
    subst g
    have : codeOf s s.curProc = c :: cs := h
    show _ = (codeOf s s.curProc).tail
    rw [this]; exact setCode_code s cs
  · next g => exact setCode_codeOf s cs (Ne.symm g)

theorem X.of_same {s s' : PS} (h : Same s s') : X.of s' = X.of s := by
  ext1 <;> simp only [X.of, h.jumps, h.procStack, h.labelNum, h.lastLabel]
  funext q; exact codeOf_eq h.procs q

theorem X.of_popJ (s : PS) (js : List Jump) : X.of (popJ s js) = { X.of s with jumps := js } := rfl

theorem X.of_pushLoop (s : PS) (t : LT) : X.of (s.pushLoop t).2 =
    { X.of s with num := s.labelNum + 1, jumps := ⟨t, PS.jumpLabel (s.labelNum + 1), s.linenum⟩ :: s.jumps } := by
  unfold PS.pushLoop; dsimp only; split <;> rfl

theorem X.of_pushProc (s : PS) (l : Str) : X.of (s.pushProc l) = { X.of s with stack := l :: s.procStack } := by
  ext1 <;> try rfl
  funext q
  show codeOf (s.pushProc l) q = codeOf s q
  unfold codeOf PS.pushProc
  dsimp only
  split
  · rfl
  · next h =>
    by_cases g : q = l
    · subst g
      rw [lookup_assign_self]
      cases hh : lookup q s.procs with
      | none => rfl
      | some v => rw [hh] at h; exact absurd rfl h
    · rw [lookup_assign_ne _ _ g]

theorem X.of_eq {s s' : PS} (h1 : s'.procs = s.procs) (h2 : s'.procStack = s.procStack) (h3 : s'.jumps = s.jumps)
    (h4 : s'.labelNum = s.labelNum) (h5 : s'.lastLabel = s.lastLabel) : X.of s' = X.of s := by
  ext1 <;> simp only [X.of, h2, h3, h4, h5]
  funext q; exact codeOf_eq h1 q

theorem X.of_setLabel (s : PS) (a : Str) (b : LabelT) : X.of (setLabel s a b) = X.of s := X.of_eq rfl rfl rfl rfl rfl

/-- One open structure: the number of its label in the cross compiler (two in a `FOR`), the source lines,
the address in the native stack, and the addresses of the `EXIT`s. -/
inductive Frame
  | loop (t : LT) (m ln p : Nat) (xs : List Nat)
  | for_ (m1 ln1 p1 m2 ln2 p2 : Nat) (xs : List Nat)
  | fwd (t : LT) (m ln p : Nat)
  | data (m ln p : Nat)

namespace Frame

/-- Entries in the cross compiler. -/
def js : Frame → List Jump
  | loop t m ln _ _ => [⟨t, PS.jumpLabel m, ln⟩]
  | for_ m1 ln1 _ m2 ln2 _ _ => [⟨.FOR_1, PS.jumpLabel m1, ln1⟩, ⟨.FOR_2, PS.jumpLabel m2, ln2⟩]
  | fwd t m ln _ => [⟨t, PS.jumpLabel m, ln⟩]
  | data m ln _ => [⟨.PROC_DATA, PS.jumpLabel m, ln⟩]

/-- An entry for `EXIT`. -/
def xent (a : Nat) : Ent := ⟨ltNum .EXIT, a⟩

/-- Entries in the native compiler. -/
def es : Frame → List Ent
  | loop t _ _ p xs => ⟨ltNum t, p⟩ :: xs.map xent
  | for_ _ _ p1 _ _ p2 xs => ⟨ltNum .FOR_1, p1⟩ :: ⟨ltNum .FOR_2, p2⟩ :: xs.map xent
  | fwd t _ _ p => [⟨ltNum t, p⟩]
  | data _ _ p => [⟨ltNum .PROC_DATA, p⟩]

/-- References that wait for the end of the structure. -/
def pend : Frame → Str → Nat → Prop
  | loop _ m _ _ xs, l, a => l = lblX (PS.jumpLabel m) ∧ a ∈ xs
  | for_ m1 _ _ m2 _ p2 xs, l, a => (l = lblX (PS.jumpLabel m1) ∧ a ∈ xs) ∨ (l = PS.jumpLabel m2 ∧ a = p2)
  | fwd _ m _ p, l, a => l = PS.jumpLabel m ∧ a = p
  | data _ _ _, _, _ => False

/-- Labels that the end of the structure will define. -/
def und : Frame → List Str
  | loop _ m _ _ _ => [lblX (PS.jumpLabel m)]
  | for_ m1 _ _ m2 _ _ _ => [lblX (PS.jumpLabel m1), PS.jumpLabel m2]
  | fwd _ m _ _ => [PS.jumpLabel m]
  | data _ _ _ => []

/-- Numbers of the labels. -/
def nums : Frame → List Nat
  | loop _ m _ _ _ => [m]
  | for_ m1 _ _ m2 _ _ _ => [m1, m2]
  | fwd _ m _ _ => [m]
  | data m _ _ => [m]

/-- The procedure that the structure opens. -/
def opn : Frame → List (Str × Nat)
  | data m _ p => [(PS.jumpLabel m, p)]
  | _ => []

/-- What is known of the code. -/
def ok (E : Enc) (base : Nat) (T : List It) : Frame → Prop
  | loop t m _ p _ => t ∈ [LT.DO_LOOP, .REPEAT, .WHILE_1, .PROC_2] ∧ (t ≠ .PROC_2 → DefAt E base T (PS.jumpLabel m) p)
  | for_ m1 _ p1 _ _ _ _ => DefAt E base T (PS.jumpLabel m1) p1
  | fwd t _ _ _ => t ∈ [LT.WHILE_2, .IF, .ELSE, .ELIF]
  | data _ _ _ => True

theorem pend_und {F : Frame} {l : Str} {a : Nat} (h : F.pend l a) : l ∈ F.und := by
  cases F with
  | loop => exact List.mem_singleton.2 h.1
  | for_ => rcases h with h | h <;> simp [und, h.1]
  | fwd => exact List.mem_singleton.2 h.1
  | data => exact h.elim

theorem und_lbl {F : Frame} {l : Str} (h : l ∈ F.und) : ∃ m ∈ F.nums, IsLbl m l := by
  cases F with
  | loop t m => exact ⟨m, by simp [nums], .inr (List.mem_singleton.1 h)⟩
  | for_ m1 _ _ m2 =>
    simp only [und, List.mem_cons, List.not_mem_nil, or_false] at h
    rcases h with h | h
    · exact ⟨m1, by simp [nums], .inr h⟩
    · exact ⟨m2, by simp [nums], .inl h⟩
  | fwd t m => exact ⟨m, by simp [nums], .inl (List.mem_singleton.1 h)⟩
  | data => cases h

end Frame

/-- References to names that wait in the native list. -/
def labPend (names : List Str) (lab : List LAd) (l : Str) (a : Nat) : Prop :=
  ∃ e ∈ lab, e.st = 0 ∧ e.pos = a ∧ ∃ nm, names[e.num]? = some nm ∧ l = labelPrefix ++ nm

/-- All the references that wait. -/
def pending (Fs : List Frame) (n : NS) (l : Str) (a : Nat) : Prop := (∃ F ∈ Fs, F.pend l a) ∨ labPend n.names n.lab l a

/-- The structures open are the same in both compilers. -/
structure FInv (E : Enc) (base : Nat) (x : X) (n : NS) (T : List It) (Fs : List Frame) : Prop where
  js : x.jumps = Fs.flatMap Frame.js
  es : n.loops = Fs.flatMap Frame.es
  ps : x.stack = (Fs.flatMap Frame.opn).map Prod.fst
  ok : ∀ F ∈ Fs, F.ok E base T
  und : ∀ F ∈ Fs, ∀ l ∈ F.und, ¬ Defined T l
  nodup : (Fs.flatMap Frame.nums).Nodup
  le : ∀ m ∈ Fs.flatMap Frame.nums, m ≤ x.num
  tl : ∀ m l, IsLbl m l → Defined T l → m ≤ x.num
  tp : ∀ q c, It.cw q c ∈ T → q = [] ∨ ∃ m, m ≤ x.num ∧ q = PS.jumpLabel m

/-- The native list of addresses of labels. -/
structure LInv (E : Enc) (base : Nat) (x : X) (n : NS) (T : List It) : Prop where
  nodup : n.names.Nodup
  ents : ∀ e ∈ n.lab, (∃ nm, n.names[e.num]? = some nm ∧ (e.st = 128 → DefAt E base T (labelPrefix ++ nm) e.pos)) ∧
    (e.st = 0 ∨ e.st = 1 ∨ e.st = 128)
  defs : ∀ nm, Defined T (labelPrefix ++ nm) → ∃ e ∈ n.lab, e.st = 128 ∧ n.names[e.num]? = some nm
  last : x.last ≠ [] → n.names[n.last]? = some x.last
  res : ∀ e ∈ n.lab, e.st = 1 → ∃ e' ∈ n.lab, e'.st = 128 ∧ e'.num = e.num

/-- The last `f` items are codes that can be removed. -/
def Fresh (q : Str) (f : Nat) (T : List It) : Prop := ∃ A B, T = A ++ B ∧ A.length = f ∧ ∀ x ∈ A, ∃ c, x = It.cw q c ∧ plain c.k

/-- Invariant of both compilers. -/
def Inv (E : Enc) (reloc base : Nat) (x : X) (n : NS) (f : Nat) : Prop :=
  ∃ T K Fs, Core E reloc base x.C (Fs.flatMap Frame.opn) n.mem n.cp T K (pending Fs n) ∧ FInv E base x n T Fs ∧
    LInv E base x n T ∧ Fresh x.cur f T

variable {E : Enc} {reloc base : Nat} {x x' : X} {n n' : NS} {T : List It} {Fs : List Frame} {f : Nat} {K : Nat → Nat → Prop}

theorem cur_map (os : List (Str × Nat)) : cur os = (os.map Prod.fst).head?.getD [] := by
  unfold cur; cases os <;> rfl

theorem FInv.cur (h : FInv E base x n T Fs) : cur (Fs.flatMap Frame.opn) = x.cur := by
  rw [cur_map, ← h.ps]; rfl

/-- Codes added by procedure `q`. -/
def addC (q : Str) (cs : List CW) (T : List It) : List It := cs.map (It.cw q) ++ T

theorem addC_at {q : Str} {cs : List CW} {y : It} {a : Nat} (h : At E base y a T) : At E base y a (addC q cs T) := by
  induction cs with
  | nil => exact h
  | cons c cs ih => exact .inr ih

theorem addC_def {q : Str} {cs : List CW} {l : Str} {a : Nat} (h : DefAt E base T l a) : DefAt E base (addC q cs T) l a := by
  obtain ⟨q', c, h, k⟩ := h; exact ⟨q', c, addC_at h, k⟩

theorem addC_defined {q : Str} {cs : List CW} {l : Str} (h : Defined (addC q cs T) l) : Defined T l ∨ ∃ c ∈ cs, c.k = .label l := by
  obtain ⟨q', c, h, k⟩ := h
  rcases List.mem_append.1 h with h | h
  · obtain ⟨c', hc, e⟩ := List.mem_map.1 h
    cases e; exact .inr ⟨c, hc, k⟩
  · exact .inl ⟨q', c, h, k⟩

theorem addC_cw {q q' : Str} {cs : List CW} {c : CW} (h : It.cw q' c ∈ addC q cs T) : It.cw q' c ∈ T ∨ q' = q := by
  rcases List.mem_append.1 h with h | h
  · obtain ⟨c', hc, e⟩ := List.mem_map.1 h
    cases e; exact .inr rfl
  · exact .inl h

/-- Some structures at the top of the stack are replaced, and codes added. -/
theorem FInv.repl {D N : List Frame} (h : FInv E base x n T (D ++ Fs)) {cs : List CW} {q : Str}
    (hq : q = [] ∨ ∃ m, m ≤ x'.num ∧ q = PS.jumpLabel m) (hnum : x.num ≤ x'.num)
    (hjs : x'.jumps = (N ++ Fs).flatMap Frame.js) (hes : n'.loops = (N ++ Fs).flatMap Frame.es)
    (hps : x'.stack = ((N ++ Fs).flatMap Frame.opn).map Prod.fst)
    (hlab : ∀ c ∈ cs, ∀ l, c.k = .label l → (∃ nm, l = labelPrefix ++ nm) ∨ ∃ m, IsLbl m l ∧ m ≤ x'.num ∧
      (m ∈ D.flatMap Frame.nums ∨ x.num < m))
    (hok : ∀ F ∈ N, F.ok E base (addC q cs T))
    (hund : ∀ F ∈ N, ∀ l ∈ F.und, ¬ Defined T l ∧ ∀ c ∈ cs, c.k ≠ .label l)
    (hnd : (N.flatMap Frame.nums).Nodup)
    (hN : ∀ m ∈ N.flatMap Frame.nums, m ≤ x'.num ∧ (m ∈ D.flatMap Frame.nums ∨ x.num < m)) :
    FInv E base x' n' (addC q cs T) (N ++ Fs) := by
  have hd := h.nodup
  rw [List.flatMap_append, List.nodup_append] at hd
  have hle : ∀ m ∈ Fs.flatMap Frame.nums, m ≤ x.num := fun m hm => h.le m (by rw [List.flatMap_append]; exact List.mem_append_right _ hm)
  have hsep : ∀ m ∈ Fs.flatMap Frame.nums, ¬ (m ∈ D.flatMap Frame.nums ∨ x.num < m) := by
    rintro m hm (g | g)
    · exact hd.2.2 m g m hm rfl
    · have := hle m hm; omega
  refine ⟨hjs, hes, hps, ?_, ?_, ?_, ?_, ?_, ?_⟩
  · intro F hF
    rcases List.mem_append.1 hF with hF | hF
    · exact hok F hF
    · have := h.ok F (List.mem_append_right _ hF)
      cases F with
      | loop => exact ⟨this.1, fun g => addC_def (this.2 g)⟩
      | for_ => exact addC_def this
      | fwd => exact this
      | data => trivial
  · intro F hF l hl hdf
    rcases List.mem_append.1 hF with hF | hF
    · obtain ⟨g1, g2⟩ := hund F hF l hl
      rcases addC_defined hdf with g | ⟨c, hc, k⟩
      · exact g1 g
      · exact g2 c hc k
    · rcases addC_defined hdf with g | ⟨c, hc, k⟩
      · exact h.und F (List.mem_append_right _ hF) l hl g
      · obtain ⟨m, hm, hlb⟩ := Frame.und_lbl hl
        rcases hlab c hc l k with ⟨nm, e⟩ | ⟨m', hlb', _, g⟩
        · exact hlb.ne_prefix nm e
        · have := hlb.uniq hlb'
          subst this
          exact hsep m (List.mem_flatMap.2 ⟨F, hF, hm⟩) g
  · rw [List.flatMap_append, List.nodup_append]
    refine ⟨hnd, hd.2.1, ?_⟩
    rintro a ha b hb rfl
    exact hsep a hb (hN a ha).2
  · intro m hm
    rw [List.flatMap_append] at hm
    rcases List.mem_append.1 hm with hm | hm
    · exact (hN m hm).1
    · exact Nat.le_trans (hle m hm) hnum
  · intro m l hlb hdf
    rcases addC_defined hdf with g | ⟨c, hc, k⟩
    · exact Nat.le_trans (h.tl m l hlb g) hnum
    · rcases hlab c hc l k with ⟨nm, e⟩ | ⟨m', hlb', hle', _⟩
      · exact absurd e (hlb.ne_prefix nm)
      · have := hlb.uniq hlb'; subst this; exact hle'
  · intro q' c hc
    rcases addC_cw hc with g | rfl
    · exact (h.tp q' c g).imp id fun ⟨m, hm, e⟩ => ⟨m, by omega, e⟩
    · exact hq

theorem LInv.add (h : LInv E base x n T) {q : Str} {cs : List CW} (hl : x'.last = x.last) (h1 : n'.names = n.names)
    (h2 : n'.lab = n.lab) (h3 : n'.last = n.last) (hcs : ∀ c ∈ cs, ∀ nm, c.k ≠ .label (labelPrefix ++ nm)) :
    LInv E base x' n' (addC q cs T) := by
  refine ⟨by rw [h1]; exact h.nodup, ?_, ?_, ?_, ?_⟩
  · intro e he
    rw [h2] at he; rw [h1]
    obtain ⟨⟨nm, g1, g2⟩, g3⟩ := h.ents e he
    exact ⟨⟨nm, g1, fun g => addC_def (g2 g)⟩, g3⟩
  · intro nm hd
    rw [h1, h2]
    rcases addC_defined hd with g | ⟨c, hc, k⟩
    · exact h.defs nm g
    · exact absurd k (hcs c hc nm)
  · rw [hl, h1, h3]; exact h.last
  · rw [h2]; exact h.res

theorem FInv.curOk (h : FInv E base x n T Fs) : x.cur = [] ∨ ∃ m, m ≤ x.num ∧ x.cur = PS.jumpLabel m := by
  unfold X.cur
  rw [h.ps]
  cases ho : Fs.flatMap Frame.opn with
  | nil => exact .inl rfl
  | cons o os =>
    obtain ⟨l, p⟩ := o
    have : (l, p) ∈ Fs.flatMap Frame.opn := by rw [ho]; exact List.mem_cons_self
    obtain ⟨F, hF, hp⟩ := List.mem_flatMap.1 this
    cases F with
    | data m ln p' =>
      rcases List.mem_singleton.1 hp with ⟨⟩
      exact .inr ⟨m, h.le m (List.mem_flatMap.2 ⟨_, hF, by simp [Frame.nums]⟩), rfl⟩
    | _ => cases hp

/-- Numbers above the ones used are not waited for. -/
theorem pend_le (h : FInv E base x n T Fs) {m : Nat} {l : Str} (hl : IsLbl m l) {a : Nat} (hp : pending Fs n l a) : m ≤ x.num := by
  rcases hp with ⟨F, hF, hp⟩ | ⟨_, _, _, _, nm, _, e⟩
  · obtain ⟨m', hm, hl'⟩ := Frame.und_lbl (Frame.pend_und hp)
    have := hl.uniq hl'; subst this
    exact h.le _ (List.mem_flatMap.2 ⟨F, hF, hm⟩)
  · exact absurd e (hl.ne_prefix nm)

theorem lbl_jump (m : Nat) : IsJump (PS.jumpLabel m) := .inl ⟨m, .inl rfl⟩
theorem lblX_jump (m : Nat) : IsJump (lblX (PS.jumpLabel m)) := .inl ⟨m, .inr rfl⟩
theorem name_jump (m : Str) : IsJump (labelPrefix ++ m) := .inr ⟨m, rfl⟩

theorem Fresh.zero (q : Str) (T : List It) : Fresh q 0 T := ⟨[], T, rfl, rfl, nofun⟩

end FB.Native
