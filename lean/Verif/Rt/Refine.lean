import Verif.Rt.Image
/-!
# The routines implement the instructions

For each instruction of the virtual machine: from a state of the machine that represents the state of the virtual machine, the
routine of the token ends in a state that represents the state after the instruction.
-/
namespace FB.Rt
open Ins Opd

variable {env : Env} {img : Image} {P : List Codew}

/-! ## From the routines of `Verif.Rt.Arith` to views -/

/-- The routine stores to no cell that the interpreter uses and writes nothing. -/
def tidy (Q k : Code) : Bool :=
  [Q, k].all fun q => allIns Ins.quiet q && [Cell.cptr, .cptrh, .vpage, .chn].all fun c => allIns (Ins.spares c) q

theorem kept_does {Q k : Code} {m m' : M} {w : W} {sp : B} (h : Halts Q k m m') (hw : m'.ax = w) (hk : Kept m m' sp)
    (ht : tidy Q k = true) (hs : ∀ k', .ret k' ∉ m.stk) : Does Q k m { m.view with ax := w, sp := sp } := by
  simp only [tidy, List.all_cons, List.all_nil, Bool.and_true, Bool.and_eq_true] at ht
  obtain ⟨⟨q1, a1, a2, a3, a4⟩, q2, b1, b2, b3, b4⟩ := ht
  refine ⟨m', h, ?_⟩
  have c1 := h.keeps .cptr a1 b1 hs
  have c2 := h.keeps .cptrh a2 b2 hs
  have c3 := h.keeps .vpage a3 b3 hs
  have c4 := h.keeps .chn a4 b4 hs
  have c5 := h.quiet q1 q2 hs
  simp only [Zp.get] at c1 c2 c3 c4
  subst hw
  simp only [M.view, c1, c2, c3, c4, c5, hk.stk, hk.sl, hk.sh, hk.ram, hk.sptr, hk.saddr, hk.saddrh, hk.arr, hk.arrh, hk.mins]
  rfl

theorem binary_does {Q k : Code} {f : W → W → W} (hb : Binary Q k f) (ht : tidy Q k = true) {m : M} (he : Entry m)
    (hs : ∀ k', .ret k' ∉ m.stk) :
    Does Q k m { m.view with ax := f (word (m.view.sl m.view.sp) (m.view.sh m.view.sp)) m.view.ax, sp := m.view.sp + 1 } := by
  obtain ⟨m', h, e, hk⟩ := hb m he
  have e0 : m.stkAt 0 = word (m.view.sl m.view.sp) (m.view.sh m.view.sp) := by
    rw [stkAt0 he, show m.y = m.view.sp from he]; rfl
  rw [e0] at e
  exact kept_does h e hk ht hs

theorem unary_does {Q k : Code} {f : W → W} (hb : Unary Q k f) (ht : tidy Q k = true) {m : M} (he : Entry m)
    (hs : ∀ k', .ret k' ∉ m.stk) : Does Q k m { m.view with ax := f m.view.ax } := by
  obtain ⟨m', h, e, hk⟩ := hb m he
  exact kept_does h e hk ht hs

theorem chr_does (m : M) (b : W) : Does (chrCode b) (chrCode b) m { m.view with ax := b, ram := upd m.view.ram (b + 1) (lo m.view.ax) } := by
  refine ⟨?_, ⟨5, ?_⟩, ?_⟩
  rotate_left
  · conv => lhs; arg 3; unfold chrCode
    rt_exec []
    rfl
  · have : word (lo b) (hi b) = b := by
      apply BitVec.eq_of_toNat_eq
      have := b.isLt
      simp [lo, hi, Nat.shiftRight_eq_div_pow]; omega
    simp [M.view, lo_word, this]

/-! ## Values -/

theorem word_lo_hi (w : W) : word (lo w) (hi w) = w := by
  apply BitVec.eq_of_toNat_eq
  have := w.isLt
  simp [lo, hi, Nat.shiftRight_eq_div_pow]; omega

theorem word_byte (b : B) : word b 0 = b.setWidth 16 := by
  apply BitVec.eq_of_toNat_eq; have := b.isLt; simp; omega

theorem VRep.ram {ram ram' : W → B} {x : Val} {w : W} (h : VRep env img P ram x w) (e : ram' (img.chr + 1) = ram (img.chr + 1)) :
    VRep env img P ram' x w := by
  cases x with
  | num a => exact h
  | ptr s o =>
    rcases h with h | ⟨b, h1, h2, h3⟩
    · exact .inl h
    · exact .inr ⟨b, h1, e.trans h2, h3⟩

theorem VRep.add {ram : W → B} {x y z : Val} {w u : W} (hx : VRep env img P ram x w) (hy : VRep env img P ram y u)
    (h : valAdd x y = some z) : VRep env img P ram z (w + u) := by
  cases x with
  | num a =>
    cases y with
    | num b => cases h; simp only [VRep] at *; rw [hx, hy]
    | ptr s o =>
      cases h
      have hx : w = a := hx
      subst hx
      rcases hy with ⟨k, h1, h2⟩ | ⟨b, h1, h2, h3⟩
      · exact .inl ⟨k, h1, by rw [h2, ← BitVec.add_assoc, BitVec.add_comm w, BitVec.add_assoc]⟩
      · exact .inr ⟨b, h1, h2, by rw [h3, ← BitVec.add_assoc, BitVec.add_comm w, BitVec.add_assoc]⟩
  | ptr s o =>
    cases y with
    | num b =>
      cases h
      have hy : u = b := hy
      subst hy
      rcases hx with ⟨k, h1, h2⟩ | ⟨b, h1, h2, h3⟩
      · exact .inl ⟨k, h1, by rw [h2, BitVec.add_assoc]⟩
      · exact .inr ⟨b, h1, h2, by rw [h3, BitVec.add_assoc]⟩
    | ptr s' o' => cases h

theorem VRep.sub {ram : W → B} {x y z : Val} {w u : W} (hx : VRep env img P ram x w) (hy : VRep env img P ram y u)
    (h : valSub x y = some z) : VRep env img P ram z (w - u) := by
  cases y with
  | ptr s o => cases x <;> cases h
  | num b =>
    have hy : u = b := hy
    subst hy
    have e : ∀ (a : W) o, a + o - u = a + (o - u) := by intro a o; bv_omega
    cases x with
    | num a => cases h; simp only [VRep] at *; rw [hx]
    | ptr s o =>
      cases h
      rcases hx with ⟨k, h1, h2⟩ | ⟨b, h1, h2, h3⟩
      · exact .inl ⟨k, h1, by rw [h2, e]⟩
      · exact .inr ⟨b, h1, h2, by rw [h3, e]⟩

theorem VRep.lift2 {ram : W → B} {f : W → W → W} {x y z : Val} {w u : W} (hx : VRep env img P ram x w) (hy : VRep env img P ram y u)
    (h : lift2 f x y = some z) : VRep env img P ram z (f w u) := by
  cases x with
  | ptr s o => cases h
  | num a =>
    cases y with
    | ptr s o => cases h
    | num b =>
      cases h
      simp only [VRep] at *; rw [hx, hy]

/-- The string of a pointer is in memory. -/
theorem VRep.str {ram : W → B} {s : List B} {o w : W} (h : VRep env img P ram (.ptr s o) w) (hp : Placed env img P)
    (hl : Loaded env img P ram) (h1 : ram img.chr = 1) :
    ∃ a, w = a + o ∧ s.length ≤ 255 ∧ ∀ i b, (strMem s)[i]? = some b → ram (a + BitVec.ofNat 16 i) = b := by
  rcases h with ⟨k, h2, h3⟩ | ⟨b, h2, h3, h4⟩
  · exact ⟨_, h3, hp.strs s (suffix_mem h2), fun i b hb => ram_at hl h2 hb⟩
  · subst h2
    refine ⟨_, h4, by simp, fun i c hc => ?_⟩
    match i, hc with
    | 0, hc => cases hc; simpa using h1
    | 1, hc => cases hc; exact h3

theorem valBool_rep {ram : W → B} {x : Val} {w : W} {b : Bool} (h : VRep env img P ram x w) (hb : valBool x = some b) : w = b2w b := by
  cases x with
  | ptr s o => cases hb
  | num a =>
    have h : w = a := h
    subst h
    simp only [valBool] at hb
    split at hb
    · next e => cases hb; exact e
    · split at hb
      · next e => cases hb; exact e
      · cases hb

theorem isBool_b2w (b : Bool) : IsBool (b2w b) := by cases b <;> simp [IsBool, b2w]

/-! ## Changes of the data -/

theorem DRep.val {d : D} {v : View} (h : DRep env img P d v) {x : Val} {w : W} (hx : VRep env img P v.ram x w) (c : W) :
    DRep env img P (d.setVal x) { v with ax := w, cp := c } :=
  ⟨fun y hy => by cases hy; exact hx, h.saddr, h.stk, h.mem, h.color, h.one, h.loaded, h.vpage, h.chn, h.out, h.arr, h.mins⟩

theorem DRep.kill {d : D} {v : View} (h : DRep env img P d v) (w c : W) : DRep env img P d.killAx { v with ax := w, cp := c } :=
  ⟨nofun, h.saddr, h.stk, h.mem, h.color, h.one, h.loaded, h.vpage, h.chn, h.out, h.arr, h.mins⟩

theorem DRep.killBoth {d : D} {v : View} (h : DRep env img P d v) (w s c : W) :
    DRep env img P d.kill { v with ax := w, saddr := s, cp := c } :=
  ⟨nofun, nofun, h.stk, h.mem, h.color, h.one, h.loaded, h.vpage, h.chn, h.out, h.arr, h.mins⟩

theorem DRep.pushed {d d1 : D} {v : View} (h : DRep env img P d v) (hd : d.push = some d1) (hl : d1.stk.length ≤ 40) (w c : W) :
    DRep env img P d1.killAx { v.push w with cp := c } := by
  simp only [D.push, Option.map_eq_some_iff] at hd
  obtain ⟨x, hx, rfl⟩ := hd
  exact ⟨nofun, h.saddr, h.stk.push (h.ax x hx) hl, h.mem, h.color, h.one, h.loaded, h.vpage, h.chn, h.out, h.arr, h.mins⟩

theorem DRep.popped {d d1 : D} {x : Val} {v : View} (h : DRep env img P d v) (hd : d.pop = some (x, d1)) :
    VRep env img P v.ram x (word (v.sl v.sp) (v.sh v.sp)) ∧ DRep env img P d1 { v with sp := v.sp + 1 } := by
  cases hs : d.stk with
  | nil => simp [D.pop, hs] at hd
  | cons y st =>
    simp only [D.pop, hs, Option.some.injEq, Prod.mk.injEq] at hd
    obtain ⟨rfl, rfl⟩ := hd
    have h' := h.stk
    rw [hs] at h'
    exact ⟨h'.pop.1, h.ax, h.saddr, h'.pop.2, h.mem, h.color, h.one, h.loaded, h.vpage, h.chn, h.out, h.arr, h.mins⟩

/-- Memory changes, not in the cells of the runtime nor in the program. -/
theorem DRep.store (hp : Placed env img P) {d : D} {v : View} (h : DRep env img P d v) {ram' mem' : W → B}
    (h1 : ∀ a, ¬ Reserved env img a → ram' a = mem' a) (h2 : ∀ a, Reserved env img a → ram' a = v.ram a)
    (h3 : ∀ a, Fixed env img P a → mem' a = d.mem a) {f : W} (h4 : f = mkW (mem' (aptr env)) (mem' (aptr env + 1))) :
    DRep env img P { d with mem := mem' } { v with ram := ram', arr := f } := by
  have hc := h2 (img.chr + 1) (.inr (.inr (.inl rfl)))
  refine ⟨fun x hx => (h.ax x hx).ram hc, h.saddr, h.stk.mono fun x _ w hw => hw.ram hc, h1, ?_, ?_, ?_, h.vpage, h.chn, h.out, h4, h.mins⟩
  · exact (h2 _ (.inl rfl)).trans h.color
  · exact (h2 _ (.inr (.inl rfl))).trans h.one
  · refine loaded_of h.loaded fun a ha => ?_
    have hn : ¬ Reserved env img a := fun hr => hp.apart a hr ha
    exact (h1 a hn).trans ((h3 a ha).trans (h.mem a hn).symm)

theorem DRep.store1 (hp : Placed env img P) {d : D} {v : View} (h : DRep env img P d v) {a : W} {b : B} (ha : ¬ Reserved env img a)
    (h3 : ∀ x, Fixed env img P x → updMem d.mem a b x = d.mem x) :
    DRep env img P { d with mem := updMem d.mem a b } { v with ram := upd v.ram a b } := by
  refine h.store hp ?_ ?_ h3 ?_
  · intro x hx
    simp only [upd, updMem]
    split
    · rfl
    · exact h.mem x hx
  · intro x hx
    simp only [upd]
    split
    · next e => subst e; exact absurd hx ha
    · rfl
  · have e1 : aptr env ≠ a := by rintro rfl; exact ha (.inr (.inr (.inr (.inl rfl))))
    have e2 : aptr env + 1 ≠ a := by rintro rfl; exact ha (.inr (.inr (.inr (.inr rfl))))
    simp only [updMem, if_neg e1, if_neg e2]
    exact h.arr

theorem DRep.store2 (hp : Placed env img P) {d : D} {v : View} (h : DRep env img P d v) {a w : W} (ha : ¬ Reserved env img a)
    (ha' : ¬ Reserved env img (a + 1)) (h3 : ∀ x, Fixed env img P x → updMem2 d.mem a w x = d.mem x) :
    DRep env img P { d with mem := updMem2 d.mem a w } { v with ram := updMem2 v.ram a w } := by
  refine h.store hp ?_ ?_ h3 ?_
  · intro x hx
    simp only [updMem, updMem2]
    split
    · rfl
    · split
      · rfl
      · exact h.mem x hx
  · intro x hx
    simp only [updMem2, updMem]
    split
    · next e => subst e; exact absurd hx ha'
    · split
      · next e => subst e; exact absurd hx ha
      · rfl
  · have e1 : ∀ x, Reserved env img x → updMem2 d.mem a w x = d.mem x := by
      intro x hx
      exact updMem2_out (by rintro rfl; exact ha hx) (by rintro rfl; exact ha' hx)
    rw [e1 _ (.inr (.inr (.inr (.inl rfl)))), e1 _ (.inr (.inr (.inr (.inr rfl))))]
    exact h.arr

/-- Characters written to the channel. -/
theorem DRep.wrote {d : D} {v : View} (h : DRep env img P d v) (cs : List B) (w c : W) :
    DRep env img P (d.put cs).killAx { v with ax := w, cp := c, out := v.out ++ cs.map fun b => (v.chn, b) } := by
  refine ⟨nofun, h.saddr, h.stk, h.mem, h.color, h.one, h.loaded, h.vpage, h.chn, ?_, h.arr, h.mins⟩
  simp only [D.killAx, D.put, List.map_append, List.map_map, h.out, List.append_cancel_left_eq]
  refine List.map_congr_left fun b _ => ?_
  have h1 := h.chn
  have h2 := d.iochn.isLt
  simp only [Function.comp, evOf, h1.2]
  congr 1
  apply BitVec.eq_of_toNat_eq
  simp only [BitVec.toNat_ofNat]
  omega

theorem write_put {d : D} {a : W} {b : B} (h : ∀ e ∈ (d.write env a b).out, ∃ ch x, e = .put ch x) :
    d.write env a b = { d with mem := updMem d.mem a b } := by
  unfold D.write at h ⊢
  split
  · next hi =>
    rw [if_pos hi] at h
    obtain ⟨ch, x, hx⟩ := h (.ioWrite a b) (by simp)
    cases hx
  · rfl

theorem write_out {d : D} {a : W} {b : B} {e : Event} (h : e ∈ d.out) : e ∈ (d.write env a b).out := by
  unfold D.write; split
  · exact List.mem_append_left _ h
  · exact h

theorem read_put {d : D} {a : W} (h : ∀ e ∈ (d.read env a).2.out, ∃ ch x, e = .put ch x) : d.read env a = (d.mem a, d) := by
  unfold D.read at h ⊢
  split
  · next hi =>
    rw [if_pos hi] at h
    obtain ⟨ch, x, hx⟩ := h (.ioRead a) (by simp)
    cases hx
  · rfl

/-! ## The condition on a step -/

/-- Addresses that the program reads or writes as data with an instruction. -/
def touched (env : Env) (t : Tok) (ops : List Codew) (d : D) : List W :=
  match t, ops with
  | .PEEK, [] => match d.ax with | some (.num a) => [a] | _ => []
  | .BYTE_PEEK, [o] => match opByte env o with | some b => [b.setWidth 16] | none => []
  | .POKE, [] => match d.saddr with | some s => [s] | none => []
  | .DPOKE, [] => match d.saddr with | some s => [s, s + 1] | none => []
  | .INC, [] | .DEC, [] => match d.ax with | some (.num a) => [a, a + 1] | _ => []
  | .BYTE_POKE, [.byteStr s] => if s = "PRINT_COLOR" then [] else [(env.byteSym s).setWidth 16]
  | .BYTE_POKE, [.byte b] => [b.setWidth 16]
  | .NUM_POKE, [o] => match opWord env o with | some w => [w] | none => []
  | .PRINT_STR, [] => match d.ax with
      | some (.num a) => a :: (List.range (d.mem a).toNat).map fun i => a + BitVec.ofNat 16 (i + 1)
      | _ => []
  | .VAR_LOAD, [o] | .PUSH_VAR_LOAD, [o] | .ADD_VAR, [o] | .VAR_STORE, [o] | .VAR_STORE_0, [o] | .INCVAR, [o] | .DECVAR, [o] =>
      match opVar o with | some n => [env.varAddr n, env.varAddr n + 1] | none => []
  | .STR_IDX, [] => match d.stk with | _ :: v :: _ => block LB 256 ++ strBlock d.mem v | _ => []
  | .other n, _ => extTouched env n d
  | _, _ => []

/-- The instruction stores to the addresses in `touched`. -/
def stores : Tok → Bool
  | .POKE | .DPOKE | .INC | .DEC | .VAR_STORE | .VAR_STORE_0 | .INCVAR | .DECVAR | .BYTE_POKE | .NUM_POKE => true
  | _ => false

/-- Addresses to which the program may write with an instruction. -/
def written (env : Env) (t : Tok) (ops : List Codew) (d : D) : List W :=
  match t with
  | .STR_IDX => block LB 256
  | .other n => extWritten env n d
  | t => if stores t then touched env t ops d else []

/-- What is asked of an instruction: it is one of those whose routine is modelled; the only events are characters written; the
integer stack has room; the program does not write over itself; cells of the runtime are not accessed as data; no pointer to the
buffer of `CHR$` is on the stack when `CHR$` is called again (pointers to other strings of one character are refused too); and the
string that is sliced is the last slice or apart from it. -/
structure Safe (env : Env) (img : Image) (P : List Codew) (t : Tok) (ops : List Codew) (d d' : D) : Prop where
  known : (routine env img t).isSome
  events : ∀ e ∈ d'.out, ∃ ch b, e = .put ch b
  depth : d'.stk.length ≤ 40
  fixed : ∀ a ∈ written env t ops d, ¬ Fixed env img P a
  apart : ∀ a ∈ touched env t ops d, ¬ Reserved env img a
  chr : t = .CHR → ∀ x ∈ d.stk, ∀ b o, x ≠ .ptr [b] o
  slice : t = .STR_IDX → ∀ x v st, d.stk = x :: v :: st → (strBytes d.mem v).isSome = true ∧ apartStr d.mem v LB = true

/-- State in which a routine starts: the operands are at `cptr`. -/
structure At (env : Env) (img : Image) (P : List Codew) (m : M) (d : D) (k : List Codew) : Prop where
  pl : Placed env img P
  entry : Entry m
  rep : DRep env img P d m.view
  suf : k <:+ P
  cp : m.view.cp = addr env img P k
  nr : ∀ k', .ret k' ∉ m.stk

/-- The routine ends in a state that represents `d'`, at the code `k`. -/
def Sim (env : Env) (img : Image) (P : List Codew) (Q q : Code) (m : M) (d' : D) (k : List Codew) : Prop :=
  ∃ v, Does Q q m v ∧ DRep env img P d' v ∧ v.cp = addr env img P k ∧ v.stk = m.stk

/-! ### Operands -/

section
variable {m : M} {d : D} {o : Codew} {r : List Codew}

theorem At.byte {b : B} (h : At env img P m d (o :: r)) (ho : opByte env o = some b) :
    m.view.ram m.view.cp = b ∧ m.view.cp + 1 = addr env img P r := by
  have e := addr_tail h.suf (env := env) (img := img)
  have hb := fun hb => ram_at (i := 0) (b := b) h.rep.loaded h.suf hb
  rw [h.cp]
  cases o with
  | byte v => cases ho; exact ⟨by simpa using hb rfl, e.symm⟩
  | byteStr s => cases ho; exact ⟨by simpa using hb rfl, e.symm⟩
  | _ => cases ho

theorem At.word {w : W} (h : At env img P m d (o :: r)) (ho : opWord env o = some w) :
    m.view.peek m.view.cp = w ∧ m.view.cp + 2 = addr env img P r := by
  have e := addr_tail h.suf (env := env) (img := img)
  have hb0 := fun hb => ram_at (i := 0) (b := lo w) h.rep.loaded h.suf hb
  have hb1 := fun hb => ram_at (i := 1) (b := hi w) h.rep.loaded h.suf hb
  rw [h.cp, View.peek]
  have key : bytesOf env img o = [lo w, hi w] := by
    cases o with
    | word v => cases ho; rfl
    | wordStr s => cases ho; rfl
    | _ => cases ho
  rw [key] at e hb0 hb1
  have a0 := hb0 rfl
  have a1 := hb1 rfl
  simp only [BitVec.ofNat_eq_ofNat, BitVec.add_zero] at a0 a1
  refine ⟨?_, e.symm⟩
  rw [a0]
  rw [show m.view.ram (addr env img P (o :: r) + 1) = hi w from a1]
  exact word_lo_hi w

theorem At.var {n : Nat} (h : At env img P m d (o :: r)) (ho : opVar o = some n) :
    m.view.var = env.varAddr n ∧ m.view.cp + 1 = addr env img P r := by
  have e := addr_tail h.suf (env := env) (img := img)
  have hb := fun hb => ram_at (i := 0) (b := BitVec.ofNat 8 n) h.rep.loaded h.suf hb
  cases o with
  | varn n' s =>
    simp only [opVar] at ho
    split at ho
    · next hn =>
      cases ho
      rw [h.cp]
      refine ⟨?_, e.symm⟩
      have a0 := hb rfl
      simp only [BitVec.ofNat_eq_ofNat, BitVec.add_zero] at a0
      rw [View.var, vaddr, h.cp, a0, Env.varAddr, h.rep.vpage]
      congr 2
      simp; omega
    · cases ho
  | _ => cases ho

theorem DRep.peekVar {v : View} (h : DRep env img P d v) {a : W} (h0 : ¬ Reserved env img a) (h1 : ¬ Reserved env img (a + 1)) :
    v.peek a = mkW (d.mem a) (d.mem (a + 1)) := by
  rw [mkW_eq, View.peek, h.mem _ h0, h.mem _ h1]

end

/-! ## The instructions -/

section
variable {m : M} {d d' : D} {o : Codew} {r : List Codew}

/-- Result with a value in the accumulator. -/
theorem simVal {Q q : Code} {x : Val} {w c : W} {k : List Codew} (h : At env img P m d k)
    (hd : Does Q q m { m.view with ax := w, cp := c }) (hx : VRep env img P m.view.ram x w) (hc : c = addr env img P r) :
    Sim env img P Q q m (d.setVal x) r := ⟨_, hd, h.rep.val hx c, hc, rfl⟩

theorem sim_num {w : W} (h : At env img P m d (o :: r)) (ho : opWord env o = some w) :
    Sim env img P coreCode coreCode.EXE_NUM m (d.setAx w) r := by
  obtain ⟨h1, h2⟩ := h.word ho
  exact simVal h (num_does m) h1 h2

theorem sim_byte {b : B} (h : At env img P m d (o :: r)) (ho : opByte env o = some b) :
    Sim env img P coreCode coreCode.EXE_BYTE m (d.setAx (b.setWidth 16)) r := by
  obtain ⟨h1, h2⟩ := h.byte ho
  exact simVal h (byte_does m) (by rw [h1, word_byte]; rfl) h2

theorem sim_cstring {s : List B} (h : At env img P m d (.str s :: r)) :
    Sim env img P coreCode coreCode.EXE_CSTRING m (d.setVal (.ptr s 0)) r := by
  have hl := h.pl.strs s (suffix_mem h.suf)
  have a0 : m.view.ram (addr env img P (.str s :: r)) = BitVec.ofNat 8 s.length := by
    simpa using ram_at (i := 0) (b := BitVec.ofNat 8 s.length) h.rep.loaded h.suf rfl
  refine simVal h (cstring_does m) (.inl ⟨r, h.suf, by rw [h.cp]; simp⟩) ?_
  rw [addr_tail h.suf, h.cp, a0, BitVec.add_assoc]
  congr 1
  apply BitVec.eq_of_toNat_eq
  simp [bytesOf, strMem]
  omega

theorem sim_var_addr {n : Nat} (h : At env img P m d (o :: r)) (ho : opVar o = some n) :
    Sim env img P coreCode coreCode.EXE_VAR_ADDR m (d.setAx (env.varAddr n)) r := by
  obtain ⟨h1, h2⟩ := h.var ho
  exact simVal h (var_addr_does m) h1 h2

theorem sim_var_saddr {n : Nat} (h : At env img P m d (o :: r)) (ho : opVar o = some n) :
    Sim env img P coreCode coreCode.EXE_VAR_SADDR m { d with ax := some (.num (env.varAddr n)), saddr := some (env.varAddr n) } r := by
  obtain ⟨h1, h2⟩ := h.var ho
  have g := h.rep
  refine ⟨_, var_saddr_does m, ?_, h2, rfl⟩
  exact ⟨fun y hy => by cases hy; exact h1, fun y hy => by cases hy; exact h1, g.stk, g.mem, g.color, g.one, g.loaded, g.vpage, g.chn, g.out, g.arr, g.mins⟩

theorem sim_var_load {n : Nat} (h : At env img P m d (o :: r)) (ho : opVar o = some n)
    (ha : ∀ a ∈ [env.varAddr n, env.varAddr n + 1], ¬ Reserved env img a) :
    Sim env img P coreCode coreCode.EXE_VAR_LOAD m (d.setAx (d.var env n)) r := by
  obtain ⟨h1, h2⟩ := h.var ho
  refine simVal h (var_load_does m) ?_ h2
  rw [h1]
  exact h.rep.peekVar (ha _ (by simp)) (ha _ (by simp))

theorem sim_zero (h : At env img P m d r) : Sim env img P coreCode coreCode.EXE_0 m (d.setAx 0) r :=
  simVal h (zero_does m) rfl h.cp

theorem sim_one (h : At env img P m d r) : Sim env img P coreCode coreCode.EXE_1 m (d.setAx 1) r :=
  simVal h (one_does m) rfl h.cp

theorem sim_push {d1 : D} (h : At env img P m d r) (hd : d.push = some d1) (hl : d1.stk.length ≤ 40) :
    Sim env img P coreCode coreCode.EXE_PUSH m d1.killAx r :=
  ⟨_, push_does m h.entry, h.rep.pushed hd hl (word m.x m.x) m.view.cp, h.cp, rfl⟩

/-- Push and load a value. -/
theorem simPush {q : Code} {d1 : D} {k : List Codew} (h : At env img P m d k) (hd : d.push = some d1) (hl : d1.stk.length ≤ 40) {w c : W}
    (hq : Does coreCode q m { m.view.push w with cp := c }) (hc : c = addr env img P r) :
    Sim env img P coreCode q m (d1.setAx w) r := by
  refine ⟨_, hq, ?_, hc, rfl⟩
  have g := (h.rep.pushed hd hl w c)
  exact ⟨fun x hx => by cases hx; rfl, g.saddr, g.stk, g.mem, g.color, g.one, g.loaded, g.vpage, g.chn, g.out, g.arr, g.mins⟩

theorem sim_push_num {d1 : D} {w : W} (h : At env img P m d (o :: r)) (hd : d.push = some d1) (hl : d1.stk.length ≤ 40)
    (ho : opWord env o = some w) : Sim env img P coreCode coreCode.EXE_PUSH_NUM m (d1.setAx w) r := by
  obtain ⟨h1, h2⟩ := h.word ho
  refine simPush h hd hl ?_ h2
  have := push_num_does m h.entry
  rwa [show word (m.view.ram m.view.cp) (m.view.ram (m.view.cp + 1)) = w from h1] at this

theorem sim_push_byte {d1 : D} {b : B} (h : At env img P m d (o :: r)) (hd : d.push = some d1) (hl : d1.stk.length ≤ 40)
    (ho : opByte env o = some b) : Sim env img P coreCode coreCode.EXE_PUSH_BYTE m (d1.setAx (b.setWidth 16)) r := by
  obtain ⟨h1, h2⟩ := h.byte ho
  refine simPush h hd hl ?_ h2
  have := push_byte_does m h.entry
  rwa [h1, word_byte] at this

theorem sim_push_0 {d1 : D} (h : At env img P m d r) (hd : d.push = some d1) (hl : d1.stk.length ≤ 40) :
    Sim env img P coreCode coreCode.EXE_PUSH_0 m (d1.setAx 0) r := simPush h hd hl (push_0_does m h.entry) h.cp

theorem sim_push_1 {d1 : D} (h : At env img P m d r) (hd : d.push = some d1) (hl : d1.stk.length ≤ 40) :
    Sim env img P coreCode coreCode.EXE_PUSH_1 m (d1.setAx 1) r := simPush h hd hl (push_1_does m h.entry) h.cp

theorem sim_push_var_load {d1 : D} {n : Nat} (h : At env img P m d (o :: r)) (hd : d.push = some d1) (hl : d1.stk.length ≤ 40)
    (ho : opVar o = some n) (ha : ∀ a ∈ [env.varAddr n, env.varAddr n + 1], ¬ Reserved env img a) :
    Sim env img P coreCode coreCode.EXE_PUSH_VAR_LOAD m (d1.setAx (d1.var env n)) r := by
  obtain ⟨h1, h2⟩ := h.var ho
  refine simPush h hd hl ?_ h2
  have := push_var_load_does m h.entry
  rw [h1, h.rep.peekVar (ha _ (by simp)) (ha _ (by simp))] at this
  simp only [D.push, Option.map_eq_some_iff] at hd
  obtain ⟨x, hx, rfl⟩ := hd
  exact this

theorem sim_add_var {n : Nat} {a x : Val} (h : At env img P m d (o :: r)) (ho : opVar o = some n) (hax : d.ax = some a)
    (hx : valAdd a (.num (d.var env n)) = some x) (ha : ∀ a ∈ [env.varAddr n, env.varAddr n + 1], ¬ Reserved env img a) :
    Sim env img P coreCode coreCode.EXE_ADD_VAR m (d.setVal x) r := by
  obtain ⟨h1, h2⟩ := h.var ho
  refine simVal h (add_var_does m) ?_ h2
  rw [h1, h.rep.peekVar (ha _ (by simp)) (ha _ (by simp))]
  exact (h.rep.ax a hax).add (y := .num (d.var env n)) rfl hx

theorem sim_peek_num {a : W} (h : At env img P m d r) (hax : d.ax = some (.num a)) (ha : ¬ Reserved env img a) :
    Sim env img P coreCode coreCode.EXE_PEEK m (d.setAx ((d.mem a).setWidth 16)) r := by
  have e : m.view.ax = a := h.rep.ax _ hax
  refine simVal h (peek_does m) ?_ h.cp
  rw [e, h.rep.mem a ha, word_byte]; rfl

theorem sim_peek_ptr {s : List B} {p : W} {b : B} (h : At env img P m d r) (hax : d.ax = some (.ptr s p))
    (hb : (strMem s)[p.toNat]? = some b) : Sim env img P coreCode coreCode.EXE_PEEK m (d.setAx (b.setWidth 16)) r := by
  obtain ⟨a, e, -, ha⟩ := (h.rep.ax _ hax).str h.pl h.rep.loaded h.rep.one
  refine simVal h (peek_does m) ?_ h.cp
  have := ha _ _ hb
  rw [BitVec.ofNat_toNat, BitVec.setWidth_eq] at this
  rw [e, this, word_byte]; rfl

theorem sim_byte_peek {b : B} (h : At env img P m d (o :: r)) (ho : opByte env o = some b)
    (ha : ¬ Reserved env img (b.setWidth 16)) :
    Sim env img P coreCode coreCode.EXE_BYTE_PEEK m (d.setAx ((d.mem (b.setWidth 16)).setWidth 16)) r := by
  obtain ⟨h1, h2⟩ := h.byte ho
  refine simVal h (byte_peek_does m) ?_ h2
  rw [h1, h.rep.mem _ ha, word_byte]; rfl

/-! ### Operators -/

theorem sim_binop {Q q : Code} {f : W → W → W} {g : Val → Val → Option Val} (hb : Binary Q q f) (ht : tidy Q q = true)
    (hg : ∀ {ram : W → B} {x y z : Val} {w u : W}, VRep env img P ram x w → VRep env img P ram y u → g x y = some z →
      VRep env img P ram z (f w u)) {x y z : Val} {d1 : D} (h : At env img P m d r) (hp : d.pop = some (x, d1))
    (hy : d1.ax = some y) (hz : g x y = some z) : Sim env img P Q q m (d1.setVal z) r := by
  obtain ⟨v1, g1⟩ := h.rep.popped hp
  refine ⟨_, binary_does hb ht h.entry h.nr, ?_, h.cp, rfl⟩
  exact g1.val (hg v1 (g1.ax y hy) hz) _

theorem sim_unop {Q q : Code} {f : W → W} (hb : Unary Q q f) (ht : tidy Q q = true) {w : W} (h : At env img P m d r)
    (hw : d.axW = some w) : Sim env img P Q q m (d.setAx (f w)) r := by
  have e : m.view.ax = w := by
    cases hax : d.ax with
    | none => rw [D.axW, hax] at hw; cases hw
    | some x =>
      cases x with
      | ptr s o => rw [D.axW, hax] at hw; cases hw
      | num a => rw [D.axW, hax] at hw; cases hw; exact h.rep.ax _ hax
  refine simVal h (unary_does hb ht h.entry h.nr) ?_ h.cp
  rw [e]; rfl

theorem At.ax {w : W} {k : List Codew} (h : At env img P m d k) (hw : d.axW = some w) : m.view.ax = w := by
  cases hax : d.ax with
  | none => rw [D.axW, hax] at hw; cases hw
  | some x =>
    cases x with
    | ptr s o => rw [D.axW, hax] at hw; cases hw
    | num a => rw [D.axW, hax] at hw; cases hw; exact h.rep.ax _ hax

theorem At.axB {b : Bool} {k : List Codew} (h : At env img P m d k) (hw : d.axBool = some b) : m.view.ax = b2w b := by
  cases hax : d.ax with
  | none => rw [D.axBool, hax] at hw; cases hw
  | some x => rw [D.axBool, hax] at hw; exact valBool_rep (h.rep.ax _ hax) hw

theorem sim_lnot {b : Bool} (h : At env img P m d r) (hb : d.axBool = some b) :
    Sim env img P lnotCode lnotCode m (d.setAx (b2w (!b))) r := by
  have e : m.ax = b2w b := h.axB hb
  obtain ⟨m', h1, h2, h3⟩ := lnot_correct m h.entry (e ▸ isBool_b2w b)
  refine simVal h (kept_does h1 h2 h3 (by decide) h.nr) ?_ h.cp
  rw [e]; cases b <;> rfl

theorem sim_bool2 {Q q : Code} {f : W → W → W} {g : Bool → Bool → Bool}
    (hb : ∀ m : M, Entry m → IsBool m.ax → IsBool (m.stkAt 0) →
      ∃ m', Halts Q q m m' ∧ m'.ax = f (m.stkAt 0) m.ax ∧ Kept m m' (m.zp.sptr + 1)) (ht : tidy Q q = true)
    (hg : ∀ x y, f (b2w x) (b2w y) = b2w (g x y)) {x : Val} {b c : Bool} {d1 : D} (h : At env img P m d r)
    (hp : d.pop = some (x, d1)) (hx : valBool x = some b) (hc : d1.axBool = some c) :
    Sim env img P Q q m (d1.setAx (b2w (g b c))) r := by
  obtain ⟨v1, g1⟩ := h.rep.popped hp
  have e1 := valBool_rep v1 hx
  have e2 : m.ax = b2w c := by
    have : d1.ax = d.ax := by
      cases hs : d.stk with
      | nil => simp [D.pop, hs] at hp
      | cons y st => simp only [D.pop, hs, Option.some.injEq, Prod.mk.injEq] at hp; rw [← hp.2]
    apply h.axB
    rw [D.axBool, ← this]; exact hc
  have e3 : m.stkAt 0 = b2w b := by
    rw [stkAt0 h.entry, show m.y = m.view.sp from h.entry]; exact e1
  obtain ⟨m', h1, h2, h3⟩ := hb m h.entry (e2 ▸ isBool_b2w c) (e3 ▸ isBool_b2w b)
  rw [e2, e3, hg] at h2
  exact ⟨_, kept_does h1 h2 h3 ht h.nr, g1.val (x := .num (b2w (g b c))) rfl _, h.cp, rfl⟩

/-! ### Stores -/

theorem sim_poke {s w : W} (h : At env img P m d r) (hs : d.saddr = some s) (hw : d.axW = some w) (ha : ¬ Reserved env img s)
    (hf : ∀ x, Fixed env img P x → updMem d.mem s (lo w) x = d.mem x) :
    Sim env img P coreCode coreCode.EXE_POKE m { d with mem := updMem d.mem s (lo w) }.kill r := by
  refine ⟨_, poke_does m, ?_, h.cp, rfl⟩
  rw [h.ax hw, h.rep.saddr s hs]
  exact (h.rep.store1 h.pl ha hf).killBoth _ _ _

theorem sim_dpoke {s w : W} (h : At env img P m d r) (hs : d.saddr = some s) (hw : d.axW = some w) (ha : ¬ Reserved env img s)
    (ha' : ¬ Reserved env img (s + 1)) (hf : ∀ x, Fixed env img P x → updMem2 d.mem s w x = d.mem x) :
    Sim env img P coreCode coreCode.EXE_DPOKE m { d with mem := updMem2 d.mem s w }.kill r := by
  obtain ⟨ax, hd⟩ := dpoke_does m
  refine ⟨_, hd, ?_, h.cp, rfl⟩
  rw [h.ax hw, h.rep.saddr s hs]
  exact (h.rep.store2 h.pl ha ha' hf).killBoth _ _ _

/-- A store of a word that ends with the store address and the accumulator unspecified. -/
theorem simStore2 {q : Code} {a w : W} {k : List Codew} (h : At env img P m d k) {c : W}
    (hd : ∃ ax, Does coreCode q m { m.view with ax := ax, cp := c, ram := updMem2 m.view.ram a w })
    (ha : ∀ x ∈ [a, a + 1], ¬ Reserved env img x) (hf : ∀ x, Fixed env img P x → updMem2 d.mem a w x = d.mem x)
    (hc : c = addr env img P r) : Sim env img P coreCode q m { d with mem := updMem2 d.mem a w }.kill r := by
  obtain ⟨ax, hd⟩ := hd
  exact ⟨_, hd, (h.rep.store2 h.pl (ha _ (by simp)) (ha _ (by simp)) hf).killBoth _ _ _, hc, rfl⟩

theorem sim_inc {a : W} (h : At env img P m d r) (hw : d.axW = some a) (ha : ∀ x ∈ [a, a + 1], ¬ Reserved env img x)
    (hf : ∀ x, Fixed env img P x → updMem2 d.mem a (mkW (d.mem a) (d.mem (a + 1)) + 1) x = d.mem x) :
    Sim env img P coreCode coreCode.EXE_INC m { d with mem := updMem2 d.mem a (mkW (d.mem a) (d.mem (a + 1)) + 1) }.kill r := by
  refine simStore2 h ?_ ha hf h.cp
  have := inc_does m
  rwa [h.ax hw, h.rep.peekVar (ha _ (by simp)) (ha _ (by simp))] at this

theorem sim_dec {a : W} (h : At env img P m d r) (hw : d.axW = some a) (ha : ∀ x ∈ [a, a + 1], ¬ Reserved env img x)
    (hf : ∀ x, Fixed env img P x → updMem2 d.mem a (mkW (d.mem a) (d.mem (a + 1)) - 1) x = d.mem x) :
    Sim env img P coreCode coreCode.EXE_DEC m { d with mem := updMem2 d.mem a (mkW (d.mem a) (d.mem (a + 1)) - 1) }.kill r := by
  refine simStore2 h ?_ ha hf h.cp
  have := dec_does m
  rwa [h.ax hw, h.rep.peekVar (ha _ (by simp)) (ha _ (by simp))] at this

theorem sim_var_store {n : Nat} {w : W} (h : At env img P m d (o :: r)) (ho : opVar o = some n) (hw : d.axW = some w)
    (ha : ∀ a ∈ [env.varAddr n, env.varAddr n + 1], ¬ Reserved env img a)
    (hf : ∀ x, Fixed env img P x → updMem2 d.mem (env.varAddr n) w x = d.mem x) :
    Sim env img P coreCode coreCode.EXE_VAR_STORE m { d with mem := updMem2 d.mem (env.varAddr n) w }.kill r := by
  obtain ⟨h1, h2⟩ := h.var ho
  refine simStore2 h ?_ ha hf h2
  have := var_store_does m
  rwa [h.ax hw, h1] at this

theorem sim_var_store_0 {n : Nat} (h : At env img P m d (o :: r)) (ho : opVar o = some n)
    (ha : ∀ a ∈ [env.varAddr n, env.varAddr n + 1], ¬ Reserved env img a)
    (hf : ∀ x, Fixed env img P x → updMem2 d.mem (env.varAddr n) 0 x = d.mem x) :
    Sim env img P coreCode coreCode.EXE_VAR_STORE_0 m { d with mem := updMem2 d.mem (env.varAddr n) 0 }.kill r := by
  obtain ⟨h1, h2⟩ := h.var ho
  refine simStore2 h ?_ ha hf h2
  have := var_store_0_does m
  rwa [h1] at this

theorem sim_incvar {n : Nat} (h : At env img P m d (o :: r)) (ho : opVar o = some n)
    (ha : ∀ a ∈ [env.varAddr n, env.varAddr n + 1], ¬ Reserved env img a)
    (hf : ∀ x, Fixed env img P x → updMem2 d.mem (env.varAddr n) (d.var env n + 1) x = d.mem x) :
    Sim env img P coreCode coreCode.EXE_INCVAR m { d with mem := updMem2 d.mem (env.varAddr n) (d.var env n + 1) }.kill r := by
  obtain ⟨h1, h2⟩ := h.var ho
  refine simStore2 h ?_ ha hf h2
  have := incvar_does m
  rwa [h1, h.rep.peekVar (ha _ (by simp)) (ha _ (by simp))] at this

theorem sim_decvar {n : Nat} (h : At env img P m d (o :: r)) (ho : opVar o = some n)
    (ha : ∀ a ∈ [env.varAddr n, env.varAddr n + 1], ¬ Reserved env img a)
    (hf : ∀ x, Fixed env img P x → updMem2 d.mem (env.varAddr n) (d.var env n - 1) x = d.mem x) :
    Sim env img P coreCode coreCode.EXE_DECVAR m { d with mem := updMem2 d.mem (env.varAddr n) (d.var env n - 1) }.kill r := by
  obtain ⟨h1, h2⟩ := h.var ho
  refine simStore2 h ?_ ha hf h2
  have := decvar_does m
  rwa [h1, h.rep.peekVar (ha _ (by simp)) (ha _ (by simp))] at this

theorem sim_saddr {w : W} (h : At env img P m d r) (hw : d.axW = some w) :
    Sim env img P coreCode coreCode.EXE_SADDR m { d with saddr := some w } r := by
  have g := h.rep
  refine ⟨_, saddr_does m, ?_, h.cp, rfl⟩
  exact ⟨g.ax, fun y hy => by cases hy; exact h.ax hw, g.stk, g.mem, g.color, g.one, g.loaded, g.vpage, g.chn, g.out, g.arr, g.mins⟩

theorem sim_byte_poke {b : B} {w : W} (h : At env img P m d (o :: r)) (ho : opByte env o = some b) (hw : d.axW = some w)
    (ha : ¬ Reserved env img (b.setWidth 16)) (hf : ∀ x, Fixed env img P x → updMem d.mem (b.setWidth 16) (lo w) x = d.mem x) :
    Sim env img P coreCode coreCode.EXE_BYTE_POKE m { d with mem := updMem d.mem (b.setWidth 16) (lo w) }.killAx r := by
  obtain ⟨h1, h2⟩ := h.byte ho
  obtain ⟨ax, hd⟩ := byte_poke_does m
  rw [h1, h.ax hw] at hd
  exact ⟨_, hd, (h.rep.store1 h.pl ha hf).kill _ _, h2, rfl⟩

/-- The colour is the only cell of the runtime that the program stores to. -/
theorem sim_color {w : W} (h : At env img P m d (.byteStr "PRINT_COLOR" :: r)) (hw : d.axW = some w) :
    Sim env img P coreCode coreCode.EXE_BYTE_POKE m { d with color := lo w }.killAx r := by
  obtain ⟨h1, h2⟩ := h.byte rfl
  obtain ⟨ax, hd⟩ := byte_poke_does m
  rw [h1, h.ax hw] at hd
  have g := h.rep
  obtain ⟨c1, c2⟩ := h.pl.color
  have hc : ∀ a, a ≠ pcol env → upd m.view.ram (pcol env) (lo w) a = m.view.ram a := fun a ha => by simp [upd, ha]
  refine ⟨_, hd, ?_, h2, rfl⟩
  refine ⟨nofun, g.saddr, g.stk.mono fun x _ u hu => hu.ram (hc _ c2.symm), ?_, ?_, ?_, ?_, g.vpage, g.chn, g.out, g.arr, g.mins⟩
  · intro a ha
    exact (hc a fun e => ha (.inl e)).trans (g.mem a ha)
  · simp [upd, pcol, D.killAx]
  · exact (hc _ c1.symm).trans g.one
  · exact loaded_of g.loaded fun a ha => hc a fun e => h.pl.apart a (.inl e) ha

theorem sim_num_poke {a w : W} (h : At env img P m d (o :: r)) (ho : opWord env o = some a) (hw : d.axW = some w)
    (ha : ¬ Reserved env img a) (hf : ∀ x, Fixed env img P x → updMem d.mem a (lo w) x = d.mem x) :
    Sim env img P coreCode coreCode.EXE_NUM_POKE m { d with mem := updMem d.mem a (lo w) }.kill r := by
  obtain ⟨h1, h2⟩ := h.word ho
  obtain ⟨ax, s, hd⟩ := num_poke_does m
  rw [h1, h.ax hw] at hd
  exact ⟨_, hd, (h.rep.store1 h.pl ha hf).killBoth _ _ _, h2, rfl⟩

/-! ### Output -/

theorem sim_put {w : W} (h : At env img P m d r) (hw : d.axW = some w) :
    Sim env img P coreCode coreCode.EXE_PUT m (d.put [lo w]).killAx r := by
  obtain ⟨ax, hd⟩ := put_does m
  rw [h.ax hw] at hd
  exact ⟨_, hd, h.rep.wrote [lo w] _ _, h.cp, rfl⟩

theorem sim_byte_put {b : B} (h : At env img P m d (o :: r)) (ho : opByte env o = some b) :
    Sim env img P coreCode coreCode.EXE_BYTE_PUT m (d.put [b]).killAx r := by
  obtain ⟨h1, h2⟩ := h.byte ho
  obtain ⟨ax, hd⟩ := byte_put_does m
  rw [h1] at hd
  exact ⟨_, hd, h.rep.wrote [b] _ _, h2, rfl⟩

theorem sim_iochn {w : W} (h : At env img P m d r) (hw : d.axW = some w) (hl : w.toNat < 8) :
    Sim env img P coreCode coreCode.EXE_IOCHN m { d with iochn := w }.killAx r := by
  obtain ⟨ax, hd⟩ := iochn_does m
  rw [h.ax hw] at hd
  have g := h.rep
  exact ⟨_, hd, ⟨nofun, g.saddr, g.stk, g.mem, g.color, g.one, g.loaded, g.vpage, ⟨hl, rfl⟩, g.out, g.arr, g.mins⟩, h.cp, rfl⟩

theorem sim_chr {w : W} (h : At env img P m d r) (hw : d.axW = some w) (hs : ∀ x ∈ d.stk, ∀ b o, x ≠ .ptr [b] o) :
    Sim env img P (chrCode img.chr) (chrCode img.chr) m (d.setVal (.ptr [lo w] 0)) r := by
  have hd := chr_does m img.chr
  rw [h.ax hw] at hd
  have g := h.rep
  have hc : ∀ a, a ≠ img.chr + 1 → upd m.view.ram (img.chr + 1) (lo w) a = m.view.ram a := fun a ha => if_neg ha
  refine ⟨_, hd, ?_, h.cp, rfl⟩
  refine ⟨?_, g.saddr, ?_, ?_, ?_, ?_, ?_, g.vpage, g.chn, g.out, g.arr, g.mins⟩
  · intro x hx
    cases hx
    exact .inr ⟨lo w, rfl, by simp [upd], by simp⟩
  · refine g.stk.mono fun x hx u hu => ?_
    cases x with
    | num a => exact hu
    | ptr s p =>
      rcases hu with hu | ⟨b, rfl, -⟩
      · exact .inl hu
      · exact absurd rfl (hs _ hx b p)
  · intro a ha
    exact (hc a fun e => ha (.inr (.inr (.inl e)))).trans (g.mem a ha)
  · exact (hc _ h.pl.color.2).trans g.color
  · exact (hc _ (by intro e; bv_omega)).trans g.one
  · exact loaded_of g.loaded fun a ha => hc a fun e => h.pl.apart a (.inr (.inr (.inl e))) ha

/-- `PRINT_STR` when the string is in memory. -/
theorem simPrint {s : List B} (h : At env img P m d r) (hl : (m.view.ram m.view.ax).toNat = s.length)
    (hs : ∀ i b, s[i]? = some b → m.view.ram (m.view.ax + BitVec.ofNat 16 (i + 1)) = b) :
    Sim env img P (printCode (pcol env)) (printCode (pcol env)) m (d.put (s.map (· ^^^ d.color))).killAx r := by
  obtain ⟨ax, hd⟩ := print_does (pcol env) m
  have e : printed m.view (pcol env) m.view.ax 0 (m.view.ram m.view.ax).toNat = (s.map (· ^^^ d.color)).map fun b => (m.view.chn, b) := by
    apply List.ext_getElem
    · simp [printed, hl]
    · intro i h1 h2
      have h3 : i < s.length := by simpa using h2
      have := hs i s[i] (List.getElem?_eq_getElem h3)
      simp [printed, this, h.rep.color]
  rw [e] at hd
  exact ⟨_, hd, h.rep.wrote _ _ _, h.cp, rfl⟩

theorem sim_print_ptr {s : List B} (h : At env img P m d r) (hax : d.ax = some (.ptr s 0)) :
    Sim env img P (printCode (pcol env)) (printCode (pcol env)) m (d.put (s.map (· ^^^ d.color))).killAx r := by
  obtain ⟨a, e, hl, ha⟩ := (h.rep.ax _ hax).str h.pl h.rep.loaded h.rep.one
  have e : m.view.ax = a := by simpa using e
  have h0 := ha 0 _ rfl
  refine simPrint h ?_ ?_
  · rw [e]
    rw [BitVec.add_zero] at h0
    rw [h0]; simp; omega
  · intro i b hb
    rw [e]
    exact ha (i + 1) b hb

theorem sim_print_num {a : W} (h : At env img P m d r) (hax : d.ax = some (.num a)) (h0 : ¬ Reserved env img a)
    (hr : ∀ i, i < (d.mem a).toNat → ¬ Reserved env img (a + BitVec.ofNat 16 (i + 1))) :
    Sim env img P (printCode (pcol env)) (printCode (pcol env)) m
      (d.put (((List.range (d.mem a).toNat).map fun i => d.mem (a + BitVec.ofNat 16 (i + 1))).map (· ^^^ d.color))).killAx r := by
  have e : m.view.ax = a := h.rep.ax _ hax
  refine simPrint h ?_ ?_
  · rw [e, h.rep.mem a h0]; simp
  · intro i b hb
    rw [List.getElem?_map] at hb
    by_cases hi : i < (d.mem a).toNat
    · rw [List.getElem?_range hi] at hb
      cases hb
      rw [e, h.rep.mem _ (hr i hi)]
    · rw [List.getElem?_eq_none (by simp; omega)] at hb
      cases hb

end

end FB.Rt
