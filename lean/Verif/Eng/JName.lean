import Verif.Eng.JUse
import Verif.Props.C38
/-!
# The jumps in the native compiler: labels by name

`E_LABEL` (`actions.asm:532-547`), with the table of names of the labels in memory.
-/
namespace FB.Eng
open FB.Rt
open FB.Native (NS LAd put wbytes ltNum)

/-- A name of the table as the model of the jumps has it. -/
def nameOf (N : List B) : List Nat := N.map BitVec.toNat

theorem nameOf_inj {N N' : List B} : nameOf N = nameOf N' ↔ N = N' := by
  constructor
  · intro h
    exact (List.map_inj_right (fun _ _ h => BitVec.eq_of_toNat_eq h)).1 h
  · intro h; rw [h]

/-- The memory holds the names of the labels: the table is before the list of addresses and after the code of the line. Labels have a type below 128. -/
structure NamesAt (p : JPar) (n : NS) (r : W → B) (ls : List Rt.Ent) : Prop where
  ok : ∀ e ∈ ls, e.Ok
  types : ∀ e ∈ ls, e.ty.toNat < 128
  count : (r lblCount).toNat = ls.length
  text : TextAt r (ptr r 2) (table ls)
  lo : p.prog + 256 ≤ (ptr r 2).toNat
  hi : (ptr r 2).toNat + (table ls).length = p.lbuf
  names : n.names = ls.map fun e => nameOf e.name

theorem slots_len {ls : List Rt.Ent} (h : ∀ e ∈ ls, e.ty.toNat < 128) : slotsOf ls = ls.length := by
  induction ls with
  | nil => rfl
  | cons e es ih =>
    have h1 := ih fun d hd => h d (List.mem_cons_of_mem _ hd)
    have h2 := h e List.mem_cons_self
    simp only [slotsOf, List.map_cons, List.sum_cons, List.length_cons] at h1 ⊢
    rw [h1, Ent.slots, if_neg (by omega)]; omega

section
variable {p : JPar} {n n' : NS} {v v' : JV} {ls : List Rt.Ent}

/-- The names are kept by what keeps the memory outside of `Touch`. -/
theorem NamesAt.keep (h : NamesAt p n v.ram ls) (hr : JRep p n v) (hf : ∀ a : W, ¬ Touch p a.toNat → v'.ram a = v.ram a) (hn : n'.names = n.names) : NamesAt p n' v'.ram ls := by
  have hlow := hr.low; have hb := hr.base_le; have hle := hr.lptr_le; have hlo := h.lo; have hhi := h.hi
  have z : ∀ i, i < 65536 → ¬ Touch p i → v'.ram (BitVec.ofNat 16 i) = v.ram (BitVec.ofNat 16 i) := by
    intro i h1 h2; exact hf _ (by rw [w16 h1]; exact h2)
  have hl := hr.below
  have nt : ∀ i, i < 0x400 → i ≠ 0xB3 → i ≠ 0xB4 → i ≠ 0xAC → i ≠ 0xAA → i ≠ 0xAB → ¬ Touch p i := by
    intro i h1 h2 h3 h4 h5 h6
    unfold Touch; omega
  have e : ∀ i, memStart + BitVec.ofNat 16 i = BitVec.ofNat 16 (0xA2 + i) := by intro i; rw [BitVec.ofNat_add]; rfl
  have p2 : ptr v'.ram 2 = ptr v.ram 2 := by
    apply toNat_ptr_eq
    · rw [e]; exact z _ (by omega) (nt _ (by omega) (by omega) (by omega) (by omega) (by omega) (by omega))
    · rw [e]; exact z _ (by omega) (nt _ (by omega) (by omega) (by omega) (by omega) (by omega) (by omega))
  refine ⟨h.ok, h.types, ?_, ?_, by rw [p2]; exact h.lo, by rw [p2]; exact h.hi, hn.trans h.names⟩
  · rw [show v'.ram lblCount = v.ram lblCount from z 0xAF (by omega) (nt _ (by omega) (by omega) (by omega) (by omega) (by omega) (by omega))]; exact h.count
  · rw [p2]
    intro i hi
    rw [← h.text i hi]
    have hlt : (ptr v.ram 2 + BitVec.ofNat 16 i).toNat = (ptr v.ram 2).toNat + i := by
      rw [BitVec.toNat_add, BitVec.toNat_ofNat]; omega
    apply hf
    rw [hlt]; unfold Touch; omega

/-- The number of a label: the place of its name in the table. -/
theorem NamesAt.found (h : NamesAt p n v.ram ls) {N : List B} {m : M} (ha : Answer N ls m) :
    if nameOf N ∈ n.names then m.c = false ∧ m.x.toNat = n.names.idxOf (nameOf N) ∧ ∃ e ∈ ls, e.name = N ∧ m.a = e.ty ∧ ls.find? (fun e => e.name = N) = some e
    else m.c = true ∧ m.x.toNat = ls.length ∧ ∀ e ∈ ls, e.name ≠ N := by
  have aux : ∀ l : List Rt.Ent, nameOf N ∈ l.map (fun e => nameOf e.name) → ∃ pre e post, l = pre ++ e :: post ∧ (∀ d ∈ pre, d.name ≠ N) ∧ e.name = N ∧
      (l.map fun e => nameOf e.name).idxOf (nameOf N) = pre.length ∧ l.find? (fun e => e.name = N) = some e := by
    intro l
    induction l with
    | nil => intro h; cases h
    | cons d ds ih =>
      intro h
      by_cases hd : d.name = N
      · refine ⟨[], d, ds, rfl, by simp, hd, ?_, ?_⟩
        · simp [hd]
        · simp [hd]
      · have : nameOf N ∈ ds.map fun e => nameOf e.name := by
          rcases List.mem_cons.1 h with h | h
          · exact absurd (nameOf_inj.1 h).symm hd
          · exact h
        obtain ⟨pre, e, post, h1, h2, h3, h4, h5⟩ := ih this
        refine ⟨d :: pre, e, post, by rw [h1]; rfl, ?_, h3, ?_, ?_⟩
        · intro x hx
          rcases List.mem_cons.1 hx with hx | hx
          · rw [hx]; exact hd
          · exact h2 x hx
        · have hb : (nameOf d.name == nameOf N) = false := beq_eq_false_iff_ne.2 fun x => hd (nameOf_inj.1 x)
          rw [List.map_cons, List.idxOf_cons, hb, h4, List.length_cons]; rfl
        · simp [hd, h5]
  split
  · rename_i hm
    rw [h.names] at hm ⊢
    obtain ⟨pre, e, post, h1, h2, h3, h4, h5⟩ := aux ls hm
    obtain ⟨c, x, a⟩ := ha.found pre e post h1 h2 h3
    refine ⟨c, ?_, e, by rw [h1]; simp, h3, a, h5⟩
    rw [x, h4, slots_len fun d hd => h.types d (by rw [h1]; exact List.mem_append_left _ hd)]
  · rename_i hm
    have hno : ∀ e ∈ ls, e.name ≠ N := by
      intro e he heq
      rw [h.names] at hm
      exact hm (List.mem_map.2 ⟨e, he, by rw [heq]⟩)
    obtain ⟨c, x⟩ := ha.missing hno
    exact ⟨c, by rw [x, slots_len h.types], hno⟩

/-- The cells of the search of names change. -/
theorem JRep.zp (h : JRep p n v) {z : Zp} (h1 : z.mins = v.z.mins) (h2 : z.prgp = v.z.prgp) (h3 : z.prgph = v.z.prgph) : JRep p n { v with z := z } := by
  have e : ({ v with z := z } : JV).prog = v.prog := by show Rt.word z.prgp z.prgph = _; rw [h2, h3]; rfl
  exact ⟨h.low, h.base_le, by rw [e]; exact h.prog, by rw [e]; exact h.pptr, h.below, h.lbuf, h.top, h.topOk, h.ord, h1.trans h.mins, h.rel, h.cp, h.mem, h.sp, h.room, h.loops, h.ents, h.last, h.lab,
    h.lptr, h.labs, h.fits⟩

end

/-- The text at the input has a name: `b` blanks, the name `N`, and another character. -/
structure NameIn (m : M) (b : Nat) (N : List B) : Prop where
  isName : IsName N
  at' : ∃ c, NameEnds c ∧ NameAt m b N c

/-- `label_search` with the table of `NamesAt`. -/
theorem label_search_at (m : M) (k : Code) (st : List Slot) {p : JPar} {n : NS} {ls : List Rt.Ent} {b : Nat} {N : List B} (hk : m.stk = .ret k :: st) (ht : NamesAt p n m.ram ls) (hN : NameIn m b N) :
    ∃ m', Reach memCode memCode.label_search m k m' ∧ m'.stk = st ∧ Read m m' b N ∧ Answer N ls m' := by
  obtain ⟨hN, c, hc, hat⟩ := hN
  obtain ⟨m1, r1, y1, x1, k1⟩ := label_search_start m
  obtain ⟨_, _, _, _, _, _, e1⟩ := id k1
  have h1 : m1.ram = m.ram ∧ m1.bp = m.bp ∧ m1.zp = m.zp ∧ m1.stk = m.stk := by rw [e1]; exact ⟨rfl, rfl, rfl, rfl⟩
  have hy : m1.y.toNat = slotsOf ls := by rw [y1, slots_len ht.types]; exact ht.count
  obtain ⟨m2, r2, k2, l2, x2, n2, h2⟩ := list_search_correct m1 2 b N c ls k st (by rw [h1.2.2.2]; exact hk) (by omega) x1 hN hc.noName hc.noDot hc.stops
    ⟨by rw [h1.1, h1.2.1, h1.2.2.1]; exact hat.text, by rw [h1.2.2.1]; exact hat.room⟩ ht.ok hy (by rw [h1.1]; exact ht.text)
  refine ⟨{ m2 with stk := st }, r1.trans r2, rfl, ⟨⟨m2, ?_, rfl⟩, l2, ?_, ?_⟩, ?_⟩
  · obtain ⟨_, _, _, _, _, _, _, _, _, _, _, _, _, _, e2⟩ := k2
    rw [e2, e1]; exact ⟨_, _, _, _, _, _, _, _, _, _, _, _, _, _, rfl⟩
  · show m2.zp.cix.toNat = _; rw [x2, h1.2.2.1]
  · show m2.namp = _; rw [n2, h1.2.1, h1.2.2.1]
  · have := answer_of_lookup hy h2
    exact ⟨this.found, this.missing⟩

section
variable (err lerr : B)
local notation "Q" => jmpCode err lerr memCode
variable {p : JPar} {n : NS} {m : M} {k : Code} {st : List Slot} {ls : List Rt.Ent} {b : Nat} {N : List B}

/-- The frame of the actions that read a name: the cells of the search, and the position in the line, change too. -/
structure Frn (p : JPar) (v v' : JV) : Prop where
  sl : v'.sl = v.sl
  sh : v'.sh = v.sh
  out : v'.out = v.out
  dev : v'.dev = v.dev
  line : v'.z.inb = v.z.inb ∧ v'.z.inbh = v.z.inbh
  ram : ∀ a : W, ¬ Touch p a.toNat → v'.ram a = v.ram a

theorem label_suf : Suf memCode memCode.label_search := find_suf memCode.label_search.find

/-- `label_search` called from the actions. -/
theorem m_search (hs : m.stk = .ret k :: st) (ht : NamesAt p n m.ram ls) (hN : NameIn m b N) :
    ∃ m' z, Reach Q memCode.label_search m k m' ∧ m'.jv = { m.jv with stk := st, z := z } ∧ z.mins = m.jv.z.mins ∧ z.prgp = m.jv.z.prgp ∧ z.prgph = m.jv.z.prgph ∧
      z.inb = m.jv.z.inb ∧ z.inbh = m.jv.z.inbh ∧ z.cix.toNat = m.zp.cix.toNat + b + N.length ∧ Answer N ls m' ∧ m'.zp.tmp3 = m.zp.tmp3 ∧ m'.zp.vlen.toNat = N.length ∧
      m'.namp = idx m.bp m.zp.cix + BitVec.ofNat 16 b := by
  obtain ⟨m1, r1, s1, ⟨⟨m2, ⟨_, _, _, _, _, _, _, _, _, _, _, _, _, _, e2⟩, e1⟩, l1, x1, n1⟩, a1⟩ := label_search_at { m with stk := [.ret away] } away [] rfl ht ⟨hN.isName, by
    obtain ⟨c, h1, h2⟩ := hN.at'; exact ⟨c, h1, h2.text, h2.room⟩⟩
  obtain ⟨r, _⟩ := mem_call err lerr label_suf hs r1
  rw [s1] at e1
  subst e2
  subst e1
  exact ⟨_, _, r, rfl, rfl, rfl, rfl, rfl, rfl, x1, ⟨a1.found, a1.missing⟩, rfl, l1, n1⟩

/-- The type of the label with a name. -/
def typeOf (ls : List Rt.Ent) (N : List B) : Option Nat := (ls.find? (fun e => e.name = N)).map fun e => e.ty.toNat

theorem lb_other (hc : m.c = false) (ha : ¬ m.a - m.zp.tmp3 = 0#8) (hs : m.stk = .ret k :: st) : Refuses err lerr memCode (.lb "lb_2" :: jmpCode.lb_2 err lerr memCode) m k st := by
  refine .inr (.inr ⟨?_, ⟨8, ?_⟩, ?_⟩)
  rotate_left
  · rt_exec [jmpCode.lb_2.eq, jmpCode.xit_label_err.eq, jmpCode.lb_xit.eq, hc, ha, hs]
    rfl
  · exact ⟨rfl, rfl⟩

theorem lb_none (hc : m.c = true) (hs : m.stk = .ret k :: st) : Refuses err lerr memCode (.lb "lb_2" :: jmpCode.lb_2 err lerr memCode) m k st := by
  refine .inr (.inr ⟨{ m with stk := st }, ⟨3, ?_⟩, ?_⟩)
  · rt_exec [jmpCode.lb_2.eq, jmpCode.lb_xit.eq, hc, hs]
  · exact ⟨hc, rfl⟩

theorem lb_same (hc : m.c = false) (ha : m.a - m.zp.tmp3 = 0#8) : ∃ m', Reach Q (.lb "lb_2" :: jmpCode.lb_2 err lerr memCode) m (jmpCode.start_searching err lerr memCode) m' ∧ m'.jv = m.jv ∧ m'.x = m.x := by
  refine ⟨?_, ⟨4, ?_⟩, ?_⟩
  rotate_left
  · rt_exec [jmpCode.lb_2.eq, hc, ha]
    rfl
  · exact ⟨rfl, rfl⟩

/-- `E_LABEL` (`actions.asm:532-575`): if the type of the label is the one in the last byte of the code, what the model says. -/
theorem m_label (h : JRep p n m.jv) (hs : m.stk = .ret k :: st) (ht : NamesAt p n m.ram ls) (hN : NameIn m b N) (hp : HasLast p n) :
    match if typeOf ls N = some n.getLastTok.1 then n.eLabel p.reloc (nameOf N) else none with
    | none => Refuses err lerr memCode (jmpCode.E_LABEL err lerr memCode) m k st
    | some n' => (Fits p n n' → ∃ m', Reach Q (jmpCode.E_LABEL err lerr memCode) m k m' ∧ m'.c = false ∧ m'.stk = st ∧ JRep p n' m'.jv ∧ Frn p m.jv m'.jv ∧
          m'.zp.cix.toNat = m.zp.cix.toNat + b + N.length) ∧
        (¬ Fits p n n' → Refuses err lerr memCode (jmpCode.E_LABEL err lerr memCode) m k st) := by
  let m0 : M := { m with stk := .ret (.lb "lb_1" :: jmpCode.lb_1 err lerr memCode) :: m.stk }
  have r0 : Reach Q (jmpCode.E_LABEL err lerr memCode) m (jmpCode.get_last_tok err lerr memCode) m0 := by
    refine ⟨1, ?_⟩
    rt_exec [jmpCode.E_LABEL.eq]
    rfl
  obtain ⟨m1, r1, d1, a1, c1, _, g1⟩ := m_last_ram err lerr memCode (m := m0) (k := .lb "lb_1" :: jmpCode.lb_1 err lerr memCode) (st := m.stk) (h.stk _) rfl hp
  let m2 : M := { m1 with zp := { m1.zp with tmp3 := m1.a }, stk := .ret (.lb "lb_2" :: jmpCode.lb_2 err lerr memCode) :: .ret k :: st }
  have s1 : m1.stk = .ret k :: st := d1.stk.trans hs
  have r2 : Reach Q (.lb "lb_1" :: jmpCode.lb_1 err lerr memCode) m1 memCode.label_search m2 := by
    refine ⟨3, ?_⟩
    rt_exec [jmpCode.lb_1.eq, s1, mem_in err lerr _ _ memCode.label_search.find]
    rfl
  have zz : m1.jv.z = m.jv.z := d1.fr.z
  have z1 : m1.zp.cix = m.zp.cix := by show m1.jv.z.cix = m.jv.z.cix; rw [zz]
  have z2 : m1.zp.inb = m.zp.inb := by show m1.jv.z.inb = m.jv.z.inb; rw [zz]
  have z3 : m1.zp.inbh = m.zp.inbh := by show m1.jv.z.inbh = m.jv.z.inbh; rw [zz]
  have hN2 : NameIn m2 b N := by
    refine ⟨hN.isName, ?_⟩
    obtain ⟨c, h1, h2⟩ := hN.at'
    refine ⟨c, h1, ?_, ?_⟩
    · show TextAt m1.ram (idx (word m1.zp.inb m1.zp.inbh) m1.zp.cix) _
      rw [g1, z1, z2, z3]; exact h2.text
    · show m1.zp.cix.toNat + _ + _ < _
      rw [z1]; exact h2.room
  have ht2 : NamesAt p n m2.ram ls := by show NamesAt p n m1.ram ls; rw [g1]; exact ht
  obtain ⟨m3, z, r3, v3, y1, y2, y3, y4, y5, y6, A3, t3, _⟩ := m_search err lerr (m := m2) rfl ht2 hN2
  have F := NamesAt.found (v := m.jv) ht A3
  have R := r0.trans (r1.trans (r2.trans r3))
  have s3 : m3.stk = .ret k :: st := congrArg JV.stk v3
  have t3' : m3.zp.tmp3 = m1.a := t3
  have zv : m3.jv.z = z := by rw [v3]
  have h3 : JRep p n.getLastTok.2 m3.jv := by
    rw [v3]
    exact ((d1.rep.stk m2.stk).zp (z := z) y1 y2 y3).stk _
  have f3 : Frn p m.jv m3.jv := by
    have f := d1.fr
    refine ⟨by rw [v3]; exact f.sl, by rw [v3]; exact f.sh, by rw [v3]; exact f.out, by rw [v3]; exact f.dev, ?_, fun a ha => by rw [v3]; exact f.ram a ha⟩
    rw [zv, y4, y5]; exact ⟨z2, z3⟩
  have x3 : m3.zp.cix.toNat = m.zp.cix.toNat + b + N.length := by
    have : m3.zp.cix = z.cix := by show m3.jv.z.cix = z.cix; rw [zv]
    rw [this, y6]
    show m1.zp.cix.toNat + _ + _ = _
    rw [z1]
  have nope : m3.c = false → m3.a ≠ m1.a → Refuses err lerr memCode (jmpCode.E_LABEL err lerr memCode) m k st := by
    intro hc ha
    exact (lb_other err lerr hc (by rw [t3', sub_eq0]; exact ha) s3).pre R
  unfold NS.eLabel
  by_cases hm : nameOf N ∈ n.names
  · rw [if_pos hm] at F
    obtain ⟨c3, x3', e, he, hen, ha3, hfi⟩ := F
    simp only [if_pos hm]
    have ty : typeOf ls N = some n.getLastTok.1 ↔ m3.a = m1.a := by
      rw [typeOf, hfi, ha3]
      show some e.ty.toNat = some _ ↔ _
      rw [← a1, Option.some.injEq]
      exact ⟨fun x => BitVec.eq_of_toNat_eq x, fun x => by rw [x]⟩
    by_cases hty : typeOf ls N = some n.getLastTok.1
    · rw [if_pos hty]
      have ha := ty.1 hty
      obtain ⟨m4, r4, v4, x4⟩ := lb_same err lerr c3 (by rw [t3', sub_eq0]; exact ha)
      have hlt : n.names.idxOf (nameOf N) < 256 := by rw [← x3']; exact m3.x.isLt
      have O := m_useLabel err lerr (m := m4) (k := k) (st := st) (by rw [v4]; exact h3) ((congrArg JV.stk v4).trans s3) (num := n.names.idxOf (nameOf N) % 256) (by
        rw [x4, Nat.mod_eq_of_lt hlt, ← x3']; simp) (by omega)
      obtain ⟨o1, o2⟩ := O
      have R' := R.trans r4
      refine ⟨fun hf => ?_, fun hf => (o2 hf).pre R'⟩
      obtain ⟨m5, r5, d5, c5⟩ := o1 hf
      refine ⟨m5, R'.trans r5, c5, d5.stk, d5.rep, ?_, ?_⟩
      · have f := d5.fr
        rw [v4] at f
        refine ⟨f.sl.trans f3.sl, f.sh.trans f3.sh, f.out.trans f3.out, f.dev.trans f3.dev, ?_, fun a ha => (f.ram a ha).trans (f3.ram a ha)⟩
        rw [f.z]; exact f3.line
      · have : m5.zp.cix = m3.zp.cix := by show m5.jv.z.cix = m3.jv.z.cix; rw [d5.fr.z, v4]
        rw [this, x3]
    · rw [if_neg hty]
      exact nope c3 (fun x => hty (ty.2 x))
  · rw [if_neg hm] at F
    obtain ⟨c3, _, hno⟩ := F
    simp only [if_neg hm, ite_self]
    exact (lb_none err lerr c3 s3).pre R

end
end FB.Eng
