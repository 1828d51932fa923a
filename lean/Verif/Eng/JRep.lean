import Verif.Eng.JPrim
import Verif.Native.Jumps
/-!
# The jumps in the native compiler: memory

How the memory of the compiler holds the state of `Native.Jumps`.
-/
namespace FB.Eng
open FB.Rt
open FB.Native (NS Ent LAd put wbytes ltNum)

/-- What does not change in these routines: start of the code, amount of relocation, `prog_ptr`, `laddr_buf` and `MEMTOP`. -/
structure JPar where
  base : Nat
  reloc : Nat
  prog : Nat
  lbuf : Nat
  top : Nat

/-- The stack of loops from `$400` up, three bytes each (`actions.asm:645-660`); the last entry is the head of the list. -/
def LoopsAt (r : W → B) : List Ent → Prop
  | [] => True
  | e :: es => r (BitVec.ofNat 16 (0x400 + 3 * es.length)) = BitVec.ofNat 8 e.type ∧ r (BitVec.ofNat 16 (0x401 + 3 * es.length)) = BitVec.ofNat 8 e.pos ∧
      r (BitVec.ofNat 16 (0x402 + 3 * es.length)) = BitVec.ofNat 8 (e.pos / 256) ∧ LoopsAt r es

/-- The list of addresses of labels, four bytes each (`actions.asm:474-500`). -/
def LabsAt (r : W → B) : Nat → List LAd → Prop
  | _, [] => True
  | a, e :: es => r (BitVec.ofNat 16 a) = BitVec.ofNat 8 e.num ∧ r (BitVec.ofNat 16 (a + 1)) = BitVec.ofNat 8 e.st ∧
      r (BitVec.ofNat 16 (a + 2)) = BitVec.ofNat 8 (e.pos / 256) ∧ r (BitVec.ofNat 16 (a + 3)) = BitVec.ofNat 8 e.pos ∧ LabsAt r (a + 4) es

/-- An entry of the stack of loops points to the code, and to two bytes reserved for an address if bit 6 of its type is clear. -/
structure EntOk (p : JPar) (e : Ent) : Prop where
  type : e.type < 256
  lo : p.base ≤ e.pos
  hi : e.pos < p.prog + 256
  two : e.type / 64 % 2 = 0 → e.pos + 2 < p.prog + 256

/-- An entry of the list of addresses points to the code, and to two bytes for an address if it is not a definition. -/
structure LabOk (p : JPar) (e : LAd) : Prop where
  num : e.num < 256
  st : e.st < 256
  lo : p.base ≤ e.pos
  hi : e.pos < p.prog + 256
  two : e.st < 128 → e.pos + 2 < p.prog + 256

/-- The byte `b` of the memory is `x`; 256 stands for a byte that is not known. -/
def Knows (x : Nat) (b : B) : Prop := x < 256 → x = b.toNat

theorem Knows.of {x : Nat} {b : B} (h : x = b.toNat) : Knows x b := fun _ => h

/-- There is code in the statement, and its last byte is known. -/
def HasLast (p : JPar) (n : NS) : Prop := p.prog < n.cp ∧ n.mem (n.cp - 1) < 256

/-- The memory holds the state of the jumps. -/
structure JRep (p : JPar) (n : NS) (v : JV) : Prop where
  low : 0x680 ≤ p.base
  base_le : p.base ≤ p.prog
  prog : v.prog.toNat = p.prog
  pptr : ptr v.ram 0 = v.prog
  below : p.prog + 256 ≤ p.lbuf
  lbuf : (ptr v.ram 3).toNat = p.lbuf
  top : (memTop v.ram).toNat = p.top
  topOk : p.top ≤ 65280
  ord : Ordered v.ram
  mins : v.z.mins = 0x88
  rel : v.rel.toNat = p.reloc
  cp : n.cp = p.prog + v.op.toNat
  mem : ∀ a, p.base ≤ a → a < p.prog + 256 → Knows (n.mem a) (v.ram (BitVec.ofNat 16 a))
  sp : (v.ram 0xB3).toNat = 3 * n.loops.length
  room : 3 * n.loops.length < 128
  loops : LoopsAt v.ram n.loops
  ents : ∀ e ∈ n.loops, EntOk p e
  last : (v.ram lastLabel).toNat = n.last
  lab : LabsAt v.ram p.lbuf n.lab
  lptr : (ptr v.ram 4).toNat = p.lbuf + 4 * n.lab.length
  labs : ∀ e ∈ n.lab, LabOk p e
  fits : p.lbuf + 4 * n.lab.length ≤ p.top

/-- The addresses that the routines on jumps may change: the code, the stack of loops, `loop_sp`, `laddr_search_num`, `save_x`, `laddr_ptr` and the list of addresses. -/
def Touch (p : JPar) (a : Nat) : Prop :=
  (p.base ≤ a ∧ a < p.prog + 256) ∨ (0x400 ≤ a ∧ a < 0x480) ∨ a = 0xB3 ∨ a = 0xB4 ∨ a = 0xAC ∨ a = 0xAA ∨ a = 0xAB ∨ (p.lbuf ≤ a ∧ a < p.top)

/-- The rest of the state is as before. -/
structure Fr (p : JPar) (v v' : JV) : Prop where
  z : v'.z = v.z
  sl : v'.sl = v.sl
  sh : v'.sh = v.sh
  out : v'.out = v.out
  dev : v'.dev = v.dev
  ram : ∀ a : W, ¬ Touch p a.toNat → v'.ram a = v.ram a

theorem Fr.refl (p : JPar) (v : JV) : Fr p v v := ⟨rfl, rfl, rfl, rfl, rfl, fun _ _ => rfl⟩

theorem Fr.trans {p : JPar} {a b c : JV} (h : Fr p a b) (h' : Fr p b c) : Fr p a c :=
  ⟨h'.z.trans h.z, h'.sl.trans h.sl, h'.sh.trans h.sh, h'.out.trans h.out, h'.dev.trans h.dev, fun x hx => (h'.ram x hx).trans (h.ram x hx)⟩

theorem w16 {a : Nat} (h : a < 65536) : (BitVec.ofNat 16 a).toNat = a := by rw [BitVec.toNat_ofNat, Nat.mod_eq_of_lt h]

theorem wne {a b : Nat} (ha : a < 65536) (hb : b < 65536) (h : a ≠ b) : BitVec.ofNat 16 a ≠ BitVec.ofNat 16 b := by
  intro e
  have := congrArg BitVec.toNat e
  rw [w16 ha, w16 hb] at this
  exact h this

theorem LoopsAt.congr {r r' : W → B} : ∀ {l : List Ent}, LoopsAt r l → (∀ i, i < 3 * l.length → r' (BitVec.ofNat 16 (0x400 + i)) = r (BitVec.ofNat 16 (0x400 + i))) → LoopsAt r' l := by
  intro l
  induction l with
  | nil => intro _ _; trivial
  | cons e es ih =>
    intro ⟨h1, h2, h3, h4⟩ h
    simp only [List.length_cons] at h
    refine ⟨?_, ?_, ?_, ih h4 fun i hi => h i (by omega)⟩
    · rw [h _ (by omega)]; exact h1
    · have := h (3 * es.length + 1) (by omega)
      rw [show 0x400 + (3 * es.length + 1) = 0x401 + 3 * es.length by omega] at this
      rw [this]; exact h2
    · have := h (3 * es.length + 2) (by omega)
      rw [show 0x400 + (3 * es.length + 2) = 0x402 + 3 * es.length by omega] at this
      rw [this]; exact h3

theorem LabsAt.congr {r r' : W → B} : ∀ {l : List LAd} {a : Nat}, LabsAt r a l → (∀ i, a ≤ i → i < a + 4 * l.length → r' (BitVec.ofNat 16 i) = r (BitVec.ofNat 16 i)) → LabsAt r' a l := by
  intro l
  induction l with
  | nil => intro _ _ _; trivial
  | cons e es ih =>
    intro a ⟨h1, h2, h3, h4, h5⟩ h
    simp only [List.length_cons] at h
    refine ⟨?_, ?_, ?_, ?_, ih h5 fun i hi hi' => h i (by omega) (by omega)⟩
    · rw [h _ (by omega) (by omega)]; exact h1
    · rw [h _ (by omega) (by omega)]; exact h2
    · rw [h _ (by omega) (by omega)]; exact h3
    · rw [h _ (by omega) (by omega)]; exact h4

theorem toNat_ptr_eq {r r' : W → B} {j : Nat} (h1 : r' (memStart + BitVec.ofNat 16 (2 * j)) = r (memStart + BitVec.ofNat 16 (2 * j)))
    (h2 : r' (memStart + BitVec.ofNat 16 (2 * j + 1)) = r (memStart + BitVec.ofNat 16 (2 * j + 1))) : ptr r' j = ptr r j := by
  rw [ptr, ptr, h1, h2]

section
variable {p : JPar} {n : NS} {v : JV}

theorem JRep.prog_lt (h : JRep p n v) : p.prog + 256 ≤ 65280 := by
  have := h.below; have := h.lbuf; have := h.ord.le 3 4 (by omega) (by omega); have := h.ord.hi; omega

theorem JRep.lptr_le (h : JRep p n v) : p.lbuf + 4 * n.lab.length ≤ 65280 := by
  have := h.lptr; have := h.ord.hi; omega

/-- The state does not depend on the stack of the processor. -/
theorem JRep.stk (h : JRep p n v) (s : List Slot) : JRep p n { v with stk := s } :=
  ⟨h.low, h.base_le, h.prog, h.pptr, h.below, h.lbuf, h.top, h.topOk, h.ord, h.mins, h.rel, h.cp, h.mem, h.sp, h.room, h.loops, h.ents, h.last, h.lab, h.lptr, h.labs, h.fits⟩

theorem Fr.stk (s : List Slot) : Fr p v { v with stk := s } := ⟨rfl, rfl, rfl, rfl, rfl, fun _ _ => rfl⟩

/-- Memory changes only in the code. -/
theorem JRep.code (h : JRep p n v) {r : W → B} {mem : Nat → Nat} {o : B} (hr : ∀ a : W, ¬ (p.base ≤ a.toNat ∧ a.toNat < p.prog + 256) → r a = v.ram a)
    (hm : ∀ a, p.base ≤ a → a < p.prog + 256 → Knows (mem a) (r (BitVec.ofNat 16 a))) : JRep p { n with mem := mem, cp := p.prog + o.toNat } { v with ram := r, op := o } := by
  have hl := h.low; have hb := h.below; have hlt := h.prog_lt; have hll := h.lptr_le
  have lo : ∀ a, a < 0x680 → r (BitVec.ofNat 16 a) = v.ram (BitVec.ofNat 16 a) := by
    intro a ha; apply hr; rw [w16 (by omega)]; omega
  have pt : ∀ j ≤ 4, ptr r j = ptr v.ram j := by
    intro j hj
    have e : ∀ i, memStart + BitVec.ofNat 16 i = BitVec.ofNat 16 (0xA2 + i) := by intro i; rw [BitVec.ofNat_add]; rfl
    apply toNat_ptr_eq
    · rw [e, lo _ (by omega)]
    · rw [e, lo _ (by omega)]
  refine ⟨h.low, h.base_le, h.prog, (pt 0 (by omega)).trans h.pptr, h.below, by show (ptr r 3).toNat = _; rw [pt 3 (by omega)]; exact h.lbuf, ?_, h.topOk, ?_, h.mins, ?_, rfl, hm, ?_, h.room, ?_, h.ents, ?_, ?_, ?_, h.labs, h.fits⟩
  · have e1 : r 0x2E5 = v.ram 0x2E5 := lo 0x2E5 (by omega)
    have e2 : r 0x2E6 = v.ram 0x2E6 := lo 0x2E6 (by omega)
    show (memTop r).toNat = _
    rw [← h.top, memTop, memTop, e1, e2]
  · refine ⟨?_, ?_, ?_⟩
    · show 0x300 ≤ (ptr r 0).toNat; rw [pt 0 (by omega)]; exact h.ord.lo
    · intro i hi; show (ptr r i).toNat ≤ (ptr r (i+1)).toNat; rw [pt i (by omega), pt (i + 1) (by omega)]; exact h.ord.mono i hi
    · show (ptr r 4).toNat ≤ _; rw [pt 4 (by omega)]; exact h.ord.hi
  · have e1 : r 0xB1 = v.ram 0xB1 := lo 0xB1 (by omega)
    have e2 : r 0xB2 = v.ram 0xB2 := lo 0xB2 (by omega)
    show (word (r 0xB1) (r 0xB2)).toNat = _
    rw [e1, e2]; exact h.rel
  · show (r 0xB3).toNat = _
    rw [show r 0xB3 = v.ram 0xB3 from lo 0xB3 (by omega)]; exact h.sp
  · have := h.room
    exact h.loops.congr fun i hi => lo _ (by omega)
  · show (r lastLabel).toNat = _
    rw [show r lastLabel = v.ram lastLabel from lo 0xB0 (by omega)]; exact h.last
  · refine h.lab.congr fun i hi hi' => hr _ ?_
    rw [w16 (by omega)]; omega
  · show (ptr r 4).toNat = _; rw [pt 4 (by omega)]; exact h.lptr

theorem put1 (m : Nat → Nat) (a b x : Nat) : put m a [b] x = if x = a then b else m x := by
  unfold put
  by_cases h : x = a
  · subst h; simp
  · rw [if_neg h, if_neg]; simp; omega

/-- One byte of the code changes. -/
theorem JRep.write (h : JRep p n v) {a : Nat} (ha : p.base ≤ a) (ha' : a < p.prog + 256) (b o : B) :
    JRep p { n with mem := put n.mem a [b.toNat], cp := p.prog + o.toNat } { v with ram := upd v.ram (BitVec.ofNat 16 a) b, op := o } := by
  have hlt := h.prog_lt
  refine h.code ?_ ?_
  · intro x hx
    apply upd_ne
    intro e
    rw [e, w16 (by omega)] at hx
    exact hx ⟨ha, ha'⟩
  · intro x hx hx'
    rw [put1]
    by_cases e : x = a
    · rw [if_pos e, e]; exact .of (by simp [upd])
    · rw [if_neg e, upd_ne (wne (by omega) (by omega) e)]
      exact h.mem x hx hx'

theorem Fr.write {a : Nat} (ha : p.base ≤ a) (ha' : a < p.prog + 256) (hl : a < 65536) (b o : B) : Fr p v { v with ram := upd v.ram (BitVec.ofNat 16 a) b, op := o } :=
  ⟨rfl, rfl, rfl, rfl, rfl, fun x hx => upd_ne fun e => hx (by rw [e, w16 hl]; exact .inl ⟨ha, ha'⟩)⟩

/-- The place of the code changes. -/
theorem JRep.move (h : JRep p n v) (o : B) : JRep p { n with cp := p.prog + o.toNat } { v with op := o } :=
  h.code (fun _ _ => rfl) h.mem

theorem Fr.move (o : B) : Fr p v { v with op := o } := ⟨rfl, rfl, rfl, rfl, rfl, fun _ _ => rfl⟩

theorem JRep.cp_eq (h : JRep p n v) : v.cp = BitVec.ofNat 16 n.cp := by
  have := h.prog_lt; have := v.op.isLt
  apply BitVec.eq_of_toNat_eq
  rw [JV.cp, idx, BitVec.toNat_add, h.prog, w16 (by omega), w16 (by rw [h.cp]; omega), h.cp]; omega

theorem JRep.idx_eq (h : JRep p n v) (o : B) : idx v.prog o = BitVec.ofNat 16 (p.prog + o.toNat) := by
  have := h.prog_lt; have := o.isLt
  apply BitVec.eq_of_toNat_eq
  rw [idx, BitVec.toNat_add, h.prog, w16 (by omega), w16 (by omega)]; omega

theorem put2 (m : Nat → Nat) (a b c : Nat) : put m a [b, c] = put (put m a [b]) (a + 1) [c] := by
  funext x
  rw [put1, put1]
  unfold put
  by_cases h : x = a
  · subst h; simp
  by_cases h' : x = a + 1
  · subst h'; simp
  · rw [if_neg h, if_neg h', if_neg]; simp; omega

theorem addr_bytes (q : W) (n r : Nat) (hq : q.toNat = n % 65536) (w : W) (hw : w.toNat = r) :
    wbytes ((n + r) % 65536) = [(lo (q + w)).toNat, (hi (q + w)).toNat] := by
  have e : (q + w).toNat = (n + r) % 65536 := by rw [BitVec.toNat_add, hq, hw, Nat.mod_add_mod]
  have := (q + w).isLt
  simp only [wbytes, lo, hi, ← e, BitVec.toNat_setWidth, BitVec.toNat_ushiftRight, Nat.shiftRight_eq_div_pow, List.cons.injEq, and_true]

/-! ## The operations on the state -/

/-- A word in the code changes. -/
theorem JRep.word (h : JRep p n v) {a : Nat} (ha : p.base ≤ a) (ha' : a + 1 < p.prog + 256) (b c o : B) :
    JRep p { n with mem := put n.mem a [b.toNat, c.toNat], cp := p.prog + o.toNat } { v with ram := upd (upd v.ram (BitVec.ofNat 16 a) b) (BitVec.ofNat 16 (a + 1)) c, op := o } ∧
      Fr p v { v with ram := upd (upd v.ram (BitVec.ofNat 16 a) b) (BitVec.ofNat 16 (a + 1)) c, op := o } := by
  have hlt := h.prog_lt
  have h1 := h.write ha (by omega) b o
  have h2 := h1.write (a := a + 1) (by omega) ha' c o
  rw [put2]
  refine ⟨h2, ?_⟩
  exact (Fr.write ha (by omega) (by omega) b o).trans (Fr.write (a := a + 1) (by omega) ha' (by omega) c o)

/-- `patch_codep`. -/
theorem JRep.patch (h : JRep p n v) {a : Nat} (ha : p.base ≤ a) (ha' : a + 1 < p.prog + 256) :
    JRep p (n.patch p.reloc a) { v with ram := upd (upd v.ram (BitVec.ofNat 16 a) (lo (v.cp + v.rel))) (BitVec.ofNat 16 (a + 1)) (hi (v.cp + v.rel)) } ∧
      Fr p v { v with ram := upd (upd v.ram (BitVec.ofNat 16 a) (lo (v.cp + v.rel))) (BitVec.ofNat 16 (a + 1)) (hi (v.cp + v.rel)) } := by
  have hlt := h.prog_lt; have := v.op.isLt; have hcp := h.cp
  obtain ⟨h1, h2⟩ := h.word ha ha' (lo (v.cp + v.rel)) (hi (v.cp + v.rel)) v.op
  refine ⟨?_, h2⟩
  have e := addr_bytes v.cp n.cp p.reloc (by rw [h.cp_eq, BitVec.toNat_ofNat]) v.rel h.rel
  rw [NS.patch, e]
  rw [← h.cp] at h1
  exact h1

/-- `emit_addr`. -/
theorem JRep.emitAddr (h : JRep p n v) (q : Nat) (w : W) (hq : w.toNat = q % 65536) (ho : v.op.toNat + 2 < 256) :
    JRep p (n.emitAddr p.reloc q) { v with ram := upd (upd v.ram v.cp (lo (w + v.rel))) (idx v.prog (v.op + 1)) (hi (w + v.rel)), op := v.op + 1 + 1 } ∧
      Fr p v { v with ram := upd (upd v.ram v.cp (lo (w + v.rel))) (idx v.prog (v.op + 1)) (hi (w + v.rel)), op := v.op + 1 + 1 } := by
  have hlt := h.prog_lt; have hcp := h.cp; have hb := h.base_le
  have o1 : (v.op + 1).toNat = v.op.toNat + 1 := by rw [BitVec.toNat_add]; simp; omega
  have o2 : (v.op + 1 + 1).toNat = v.op.toNat + 2 := by rw [BitVec.toNat_add, o1]; simp; omega
  obtain ⟨h1, h2⟩ := h.word (a := n.cp) (by omega) (by omega) (lo (w + v.rel)) (hi (w + v.rel)) (v.op + 1 + 1)
  rw [h.cp_eq, h.idx_eq, o1, show p.prog + (v.op.toNat + 1) = n.cp + 1 by omega]
  refine ⟨?_, h2⟩
  rw [NS.emitAddr, NS.emitB, addr_bytes w q p.reloc hq v.rel h.rel]
  rw [o2, ← Nat.add_assoc, ← h.cp] at h1
  exact h1

theorem sp_eq (h : JRep p n v) : v.ram 0xB3 = BitVec.ofNat 8 (3 * n.loops.length) := by
  have := h.room; have := h.sp
  apply BitVec.eq_of_toNat_eq
  rw [BitVec.toNat_ofNat]; omega

/-- Memory changes only in the stack of loops. -/
theorem JRep.stack (h : JRep p n v) {r : W → B} {l : List Ent} (hr : ∀ a : W, a ≠ 0xB3 → a ≠ 0xB4 → ¬ (0x400 ≤ a.toNat ∧ a.toNat < 0x480) → r a = v.ram a)
    (hsp : (r 0xB3).toNat = 3 * l.length) (hroom : 3 * l.length < 128) (hl : LoopsAt r l) (he : ∀ e ∈ l, EntOk p e) (o : B) :
    JRep p { n with loops := l, cp := p.prog + o.toNat } { v with ram := r, op := o } ∧ Fr p v { v with ram := r, op := o } := by
  have hlow := h.low; have hb := h.below; have hlt := h.prog_lt; have hll := h.lptr_le; have hbl := h.base_le
  have eq : ∀ a, a < 65536 → a ≠ 0xB3 → a ≠ 0xB4 → ¬ (0x400 ≤ a ∧ a < 0x480) → r (BitVec.ofNat 16 a) = v.ram (BitVec.ofNat 16 a) := by
    intro a h1 h2 h3 h4
    exact hr _ (wne (b := 0xB3) h1 (by omega) h2) (wne (b := 0xB4) h1 (by omega) h3) (by rw [w16 h1]; exact h4)
  have pt : ∀ j ≤ 4, ptr r j = ptr v.ram j := by
    intro j hj
    have e : ∀ i, memStart + BitVec.ofNat 16 i = BitVec.ofNat 16 (0xA2 + i) := by intro i; rw [BitVec.ofNat_add]; rfl
    apply toNat_ptr_eq
    · rw [e, eq _ (by omega) (by omega) (by omega) (by omega)]
    · rw [e, eq _ (by omega) (by omega) (by omega) (by omega)]
  refine ⟨⟨h.low, h.base_le, h.prog, (pt 0 (by omega)).trans h.pptr, h.below, by show (ptr r 3).toNat = _; rw [pt 3 (by omega)]; exact h.lbuf, ?_, h.topOk, ?_, h.mins, ?_, rfl, ?_, hsp, hroom, hl, he, ?_, ?_, ?_, h.labs, h.fits⟩, ?_⟩
  · have e1 : r 0x2E5 = v.ram 0x2E5 := eq 0x2E5 (by omega) (by omega) (by omega) (by omega)
    have e2 : r 0x2E6 = v.ram 0x2E6 := eq 0x2E6 (by omega) (by omega) (by omega) (by omega)
    show (memTop r).toNat = _
    rw [← h.top, memTop, memTop, e1, e2]
  · refine ⟨?_, ?_, ?_⟩
    · show 0x300 ≤ (ptr r 0).toNat; rw [pt 0 (by omega)]; exact h.ord.lo
    · intro i hi; show (ptr r i).toNat ≤ (ptr r (i+1)).toNat; rw [pt i (by omega), pt (i + 1) (by omega)]; exact h.ord.mono i hi
    · show (ptr r 4).toNat ≤ _; rw [pt 4 (by omega)]; exact h.ord.hi
  · have e1 : r 0xB1 = v.ram 0xB1 := eq 0xB1 (by omega) (by omega) (by omega) (by omega)
    have e2 : r 0xB2 = v.ram 0xB2 := eq 0xB2 (by omega) (by omega) (by omega) (by omega)
    show (Rt.word (r 0xB1) (r 0xB2)).toNat = _
    rw [e1, e2]; exact h.rel
  · intro a ha ha'
    show Knows _ (r _)
    rw [eq a (by omega) (by omega) (by omega) (by omega)]; exact h.mem a ha ha'
  · show (r lastLabel).toNat = _
    rw [show r lastLabel = v.ram lastLabel from eq 0xB0 (by omega) (by omega) (by omega) (by omega)]; exact h.last
  · exact h.lab.congr fun i hi hi' => eq _ (by omega) (by omega) (by omega) (by omega)
  · show (ptr r 4).toNat = _; rw [pt 4 (by omega)]; exact h.lptr
  · refine ⟨rfl, rfl, rfl, rfl, rfl, fun x hx => hr x ?_ ?_ ?_⟩
    · intro e; exact hx (by rw [e]; exact .inr (.inr (.inl rfl)))
    · intro e; exact hx (by rw [e]; exact .inr (.inr (.inr (.inl rfl))))
    · intro e; exact hx (.inr (.inl e))

theorem lo_ofNat (a : Nat) : lo (BitVec.ofNat 16 a) = BitVec.ofNat 8 a := by
  apply BitVec.eq_of_toNat_eq
  simp only [lo, BitVec.toNat_setWidth, BitVec.toNat_ofNat]; omega
theorem hi_ofNat (a : Nat) (h : a < 65536) : hi (BitVec.ofNat 16 a) = BitVec.ofNat 8 (a / 256) := by
  apply BitVec.eq_of_toNat_eq
  simp only [hi, BitVec.toNat_setWidth, BitVec.toNat_ushiftRight, Nat.shiftRight_eq_div_pow, BitVec.toNat_ofNat]
  rw [Nat.mod_eq_of_lt h]

theorem idx_stk (w i : Nat) (hi : i < 256) : idx (BitVec.ofNat 16 w) (BitVec.ofNat 8 i) = BitVec.ofNat 16 (w + i) := by
  rw [idx, BitVec.toNat_ofNat, Nat.mod_eq_of_lt (by omega), ← BitVec.ofNat_add]

/-- `push_codep`. -/
theorem JRep.push (h : JRep p n v) {t : Nat} (ht : t < 256) (hroom : 3 * (n.loops.length + 1) < 128) (o : B) (hok : EntOk p ⟨t, n.cp⟩) :
    JRep p { n with loops := ⟨t, n.cp⟩ :: n.loops, cp := p.prog + o.toNat } { v with ram := v.pushed (v.ram 0xB3) (BitVec.ofNat 8 t), op := o } ∧
      Fr p v { v with ram := v.pushed (v.ram 0xB3) (BitVec.ofNat 8 t), op := o } := by
  have hlt := h.prog_lt; have := v.op.isLt; have hcp := h.cp
  have y3 : v.ram 0xB3 + 1 + 1 + 1 = BitVec.ofNat 8 (3 * n.loops.length + 3) := by
    rw [sp_eq h]; apply BitVec.eq_of_toNat_eq; simp [BitVec.toNat_add, BitVec.toNat_ofNat]
  have i1 : idx 0x3fd (BitVec.ofNat 8 (3 * n.loops.length + 3)) = BitVec.ofNat 16 (0x400 + 3 * n.loops.length) := by
    rw [show (0x3fd : W) = BitVec.ofNat 16 0x3fd from rfl, idx_stk _ _ (by omega)]; congr 1; omega
  have i2 : idx 0x3fe (BitVec.ofNat 8 (3 * n.loops.length + 3)) = BitVec.ofNat 16 (0x401 + 3 * n.loops.length) := by
    rw [show (0x3fe : W) = BitVec.ofNat 16 0x3fe from rfl, idx_stk _ _ (by omega)]; congr 1; omega
  have i3 : idx 0x3ff (BitVec.ofNat 8 (3 * n.loops.length + 3)) = BitVec.ofNat 16 (0x402 + 3 * n.loops.length) := by
    rw [show (0x3ff : W) = BitVec.ofNat 16 0x3ff from rfl, idx_stk _ _ (by omega)]; congr 1; omega
  have key : ∀ a, a < 65536 → a ≠ 0xB3 → ¬ (0x400 + 3 * n.loops.length ≤ a ∧ a < 0x403 + 3 * n.loops.length) → v.pushed (v.ram 0xB3) (BitVec.ofNat 8 t) (BitVec.ofNat 16 a) = v.ram (BitVec.ofNat 16 a) := by
    intro a h1 h2 h3
    rw [JV.pushed, y3, i1, i2, i3, upd_ne (wne h1 (by omega) (by omega)), upd_ne (wne h1 (by omega) (by omega)), upd_ne (wne h1 (by omega) (by omega))]
    exact upd_ne (wne (b := 0xB3) h1 (by omega) h2)
  refine h.stack (l := ⟨t, n.cp⟩ :: n.loops) ?_ ?_ hroom ⟨?_, ?_, ?_, ?_⟩ ?_ o
  · intro a h1 h2 h3
    have e : a = BitVec.ofNat 16 a.toNat := by simp
    rw [e]
    refine key _ a.isLt ?_ (by omega)
    intro e'; exact h1 (by rw [e, e']; rfl)
  · have : v.pushed (v.ram 0xB3) (BitVec.ofNat 8 t) 0xB3 = BitVec.ofNat 8 (3 * n.loops.length + 3) := by
      rw [JV.pushed, y3, i1, i2, i3, show (0xB3 : W) = BitVec.ofNat 16 0xB3 from rfl, upd_ne (wne (by omega) (by omega) (by omega)), upd_ne (wne (by omega) (by omega) (by omega)), upd_ne (wne (by omega) (by omega) (by omega))]
      simp [upd]
    rw [this, BitVec.toNat_ofNat, List.length_cons]; omega
  · rw [JV.pushed, y3, i1, i2, i3, upd_ne (wne (by omega) (by omega) (by omega)), upd_ne (wne (by omega) (by omega) (by omega))]
    simp [upd]
  · rw [JV.pushed, y3, i1, i2, i3, upd_ne (wne (by omega) (by omega) (by omega)), h.cp_eq, lo_ofNat]
    simp [upd]
  · rw [JV.pushed, y3, i1, i2, i3, h.cp_eq, hi_ofNat _ (by omega)]
    simp [upd]
  · exact h.loops.congr fun i hi => key _ (by omega) (by omega) (by omega)
  · intro e he
    rcases List.mem_cons.1 he with rfl | he
    · exact hok
    · exact h.ents e he

/-- `pop_codep::get`. -/
theorem JRep.pop (h : JRep p n v) {e : Ent} {es : List Ent} (hl : n.loops = e :: es) :
    JRep p { n with loops := es } { v with ram := upd v.ram 0xB3 (v.ram 0xB3 - 1 - 1 - 1) } ∧ Fr p v { v with ram := upd v.ram 0xB3 (v.ram 0xB3 - 1 - 1 - 1) } ∧
      Rt.word (v.ram (idx 0x401 (v.ram 0xB3 - 1 - 1 - 1))) (v.ram (idx 0x402 (v.ram 0xB3 - 1 - 1 - 1))) = BitVec.ofNat 16 e.pos := by
  have hlt := h.prog_lt; have := v.op.isLt; have hcp := h.cp; have hroom := h.room
  rw [hl, List.length_cons] at hroom
  have y3 : v.ram 0xB3 - 1 - 1 - 1 = BitVec.ofNat 8 (3 * es.length) := by
    rw [sp_eq h, hl, List.length_cons]; apply BitVec.eq_of_toNat_eq; simp [BitVec.toNat_ofNat]; omega
  have hla := h.loops
  rw [hl] at hla
  obtain ⟨l1, l2, l3, l4⟩ := hla
  have he := h.ents e (by rw [hl]; exact List.mem_cons_self ..)
  have s := h.stack (r := upd v.ram 0xB3 (v.ram 0xB3 - 1 - 1 - 1)) (l := es) ?_ ?_ (by omega) ?_ (fun e he => h.ents e (by rw [hl]; exact List.mem_cons_of_mem _ he)) v.op
  · rw [← h.cp] at s
    refine ⟨s.1, s.2, ?_⟩
    rw [y3, show (0x401 : W) = BitVec.ofNat 16 0x401 from rfl, show (0x402 : W) = BitVec.ofNat 16 0x402 from rfl, idx_stk _ _ (by omega), idx_stk _ _ (by omega), l2, l3]
    have := he.hi
    apply BitVec.eq_of_toNat_eq
    rw [word_toNat, BitVec.toNat_ofNat, BitVec.toNat_ofNat, BitVec.toNat_ofNat]; omega
  · intro a h1 _ _; exact upd_ne h1
  · rw [y3]; simp [upd]; omega
  · exact l4.congr fun i hi => upd_ne (wne (b := 0xB3) (by omega) (by omega) (by omega))

/-- The type of the last entry. -/
theorem JRep.top_type (h : JRep p n v) {e : Ent} {es : List Ent} (hl : n.loops = e :: es) : v.ram (idx 0x3fd (v.ram 0xB3)) = BitVec.ofNat 8 e.type ∧ v.ram 0xB3 ≠ 0#8 := by
  have hroom := h.room; have hsp := sp_eq h
  have hla := h.loops
  rw [hl] at hla
  rw [hl, List.length_cons] at hroom hsp
  constructor
  · rw [hsp, show (0x3fd : W) = BitVec.ofNat 16 0x3fd from rfl, idx_stk _ _ (by omega), show 0x3fd + 3 * (es.length + 1) = 0x400 + 3 * es.length by omega]
    exact hla.1
  · rw [hsp]; intro e'
    have := congrArg BitVec.toNat e'
    rw [BitVec.toNat_ofNat] at this; simp at this; omega

theorem JRep.no_loops (h : JRep p n v) (hl : n.loops = []) : v.ram 0xB3 = 0#8 := by
  rw [sp_eq h, hl]; rfl

end
end FB.Eng
