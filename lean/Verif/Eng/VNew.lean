import Verif.Eng.VActs
/-!
# Variables in the native compiler: types and new variables
-/
namespace FB.Eng
open FB.Rt

theorem retype_last (us : List Rt.Ent) (e : Rt.Ent) (t : B) : retype (us ++ [e]) t = us ++ [{ e with ty := t }] := by simp [retype]

theorem ent_last (e : Rt.Ent) (t : B) : Ent.bytes { e with ty := t } = e.bytes.set (e.bytes.length - 1) t := by
  rw [Ent.bytes_length]
  simp only [Ent.bytes]
  rw [List.set_append_right _ _ (by rw [marked_length]; omega), marked_length]
  simp

theorem table_last (us : List Rt.Ent) (e : Rt.Ent) (t : B) : table (us ++ [{ e with ty := t }]) = (table (us ++ [e])).set ((table (us ++ [e])).length - 1) t := by
  have h : ∀ e : Rt.Ent, table (us ++ [e]) = table us ++ e.bytes := by intro e; simp [table]
  have hl := Ent.bytes_length e
  rw [h, h, List.length_append, List.set_append_right _ _ (by omega), ent_last]
  congr 2; omega

theorem slots_snoc (us : List Rt.Ent) (e : Rt.Ent) : slotsOf (us ++ [e]) = slotsOf us + if 128 ≤ e.ty.toNat then 3 else 1 := by simp [slotsOf, Ent.slots]

theorem table_pos (us : List Rt.Ent) (e : Rt.Ent) : 0 < (table (us ++ [e])).length := by
  have h : table (us ++ [e]) = table us ++ e.bytes := by simp [table]
  rw [h, List.length_append, Ent.bytes_length]; omega

theorem back_ptr (l h : B) : idx (word l (h - 1#8)) 0xFF#8 = word l h - 1#16 := by
  have h1 := l.isLt
  have h2 := h.isLt
  apply BitVec.eq_of_toNat_eq
  simp only [idx, word, BitVec.toNat_add, BitVec.toNat_sub, BitVec.toNat_ofNat]
  omega

/-- `dec p+1; sta (p),y; inc p+1` with `y = $FF` stores at `p - 1`. -/
theorem store_last {r : W → B} {c : W} {t : B} {q : W} (hq : word (r c) (r (c + 1)) - 1#16 = q) (h1 : q ≠ c + 1) (h2 : c ≠ c + 1) :
    (let r2 := upd r (c + 1) (r (c + 1) - 1#8)
     let r3 := upd r2 (idx (word (r2 c) (r2 (c + 1))) 0xFF#8) t
     upd r3 (c + 1) (r3 (c + 1) + 1#8)) = upd r q t := by
  have e0 : idx (word (upd r (c + 1) (r (c + 1) - 1#8) c) (upd r (c + 1) (r (c + 1) - 1#8) (c + 1))) 0xFF#8 = q := by
    rw [upd_ne h2, upd_at, back_ptr, hq]
  simp only [e0]
  funext a
  by_cases ha : a = c + 1
  · rw [ha, upd_at, upd_ne (Ne.symm h1), upd_ne (Ne.symm h1), upd_at, BitVec.sub_add_cancel]
  · rw [upd_ne ha]
    by_cases hb : a = q
    · rw [hb, upd_at, upd_at]
    · rw [upd_ne hb, upd_ne hb, upd_ne ha]

section
variable {base : Nat} {s : VS} {v : JV}

/-- The last byte of the table of variables. -/
theorem VRep.var_type (h : VRep base s v) {us : List Rt.Ent} {e : Rt.Ent} (hv : s.vs = us ++ [e]) (t : B) {r : W → B} {z : Zp} {stk : List Slot} (hz : SameC v.z z)
    (hr : ∀ a, a ≠ varCount → r a = upd v.ram (ptr v.ram 2 - 1#16) t a) (hc : (r varCount).toNat = slotsOf (us ++ [{ e with ty := t }])) :
    VRep base { s with vs := retype s.vs t } { v with ram := r, z := z, stk := stk } := by
  have hsz := h.size; have hlo := h.low; have hro := h.room
  have hpos := table_pos us e
  rw [← hv] at hpos
  have hp := h.ptr_eq 2 (by omega)
  have hp' : ptr v.ram 2 - 1#16 = BitVec.ofNat 16 (base + (s.prog.length + s.buf.length + ((table s.vs).length - 1))) := by
    simp only [VS.areas, List.take_succ_cons, List.take_zero, List.flatten_cons, List.flatten_nil, List.append_nil, List.length_append] at hp
    apply BitVec.eq_of_toNat_eq
    rw [BitVec.toNat_sub, hp, BitVec.toNat_ofNat, BitVec.toNat_ofNat]
    omega
  have hn : (ptr v.ram 2 - 1#16).toNat = base + (s.prog.length + s.buf.length + ((table s.vs).length - 1)) := by
    rw [hp', BitVec.toNat_ofNat]; omega
  have low : ∀ a : W, a.toNat < 0x600 → a ≠ varCount → r a = v.ram a := by
    intro a ha h1
    rw [hr a h1]
    apply upd_ne
    intro e
    rw [e, hn] at ha
    omega
  have T := h.tabs
  have L : Lays (upd v.ram (ptr v.ram 2 - 1#16) t) base { s with vs := retype s.vs t }.areas := by
    rw [hp', hv, retype_last]
    refine lays_set T.lays rfl ?_ ?_ ?_
    · intro j
      simp only [VS.areas]
      rw [hv, table_last]
      match j with
      | 0 => rfl
      | 1 => rfl
      | 2 => rfl
      | j + 3 => simp only [List.take_succ_cons, List.flatten_cons, List.length_append, List.length_set]
    · simp only [VS.areas, List.flatten_cons]
      rw [hv, table_last]
      have := set_mid (s.prog ++ s.buf) (table (us ++ [e])) (table s.ls ++ (s.lad ++ List.flatten [])) ((table (us ++ [e])).length - 1) t (by rw [← hv]; omega)
      simp only [List.append_assoc, List.length_append] at this
      rw [this]
    · simp only [VS.areas, List.flatten_cons, List.length_append]
      rw [← hv]
      omega
  have T2 : Tables (upd (upd v.ram (ptr v.ram 2 - 1#16) t) varCount (r varCount)) base { s with vs := retype s.vs t }.areas (retype s.vs t) s.ls := by
    refine ⟨lays_upd L _ _ (by show 0xAE < 0x300; omega) (cell_free varCount (.inl rfl)).1, rfl, rfl, ?_, T.lok, ?_, ?_⟩
    · rw [hv, retype_last]
      have := T.vok
      intro x hx
      rcases List.mem_append.1 hx with hx | hx
      · exact this x (by rw [hv]; exact List.mem_append_left _ hx)
      · obtain rfl := List.mem_singleton.1 hx
        have := this e (by rw [hv]; simp)
        exact ⟨this.ne, this.chars, this.short⟩
    · rw [upd_at, hc, hv, retype_last]
    · rw [upd_ne (by decide), upd_ne (fun e => by have := congrArg BitVec.toNat e; rw [hn] at this; change 0xAF = _ at this; omega)]
      exact T.lcount
  refine h.change (s' := { s with vs := retype s.vs t }) (v' := { v with ram := r, z := z, stk := stk }) (T2.congr fun a _ => ?_) hro ?_ hz.mins (fun a ha => low a (by omega) (fun e => by rw [e] at ha; revert ha; decide)) h.op rfl ?_
  · by_cases ha : a = varCount
    · rw [ha, upd_at]
    · rw [upd_ne ha]; exact hr a ha
  · show word z.prgp z.prgph = ptr r 0
    rw [hz.prgp, hz.prgph]
    have : ptr r 0 = ptr v.ram 0 := by
      unfold ptr
      rw [low _ (by decide) (by decide), low _ (by decide) (by decide)]
    rw [this]; exact h.pptr
  · have := h.fits
    rw [hv, retype_last]
    simp only [VS.areas, List.flatten_cons, List.length_append] at this ⊢
    rw [table_last, List.length_set, ← hv]
    exact this

/-- The last byte of the table of labels. -/
theorem VRep.label_type (h : VRep base s v) {us : List Rt.Ent} {e : Rt.Ent} (hv : s.ls = us ++ [e]) {t : B} (h1 : t.toNat < 128) (h2 : e.ty.toNat < 128) {r : W → B} {z : Zp} {stk : List Slot} (hz : SameC v.z z)
    (hr : r = upd v.ram (ptr v.ram 3 - 1#16) t) :
    VRep base { s with ls := retype s.ls t } { v with ram := r, z := z, stk := stk } := by
  have hsz := h.size; have hlo := h.low; have hro := h.room
  have hpos := table_pos us e
  rw [← hv] at hpos
  have hp := h.ptr_eq 3 (by omega)
  have hp' : ptr v.ram 3 - 1#16 = BitVec.ofNat 16 (base + (s.prog.length + s.buf.length + (table s.vs).length + ((table s.ls).length - 1))) := by
    simp only [VS.areas, List.take_succ_cons, List.take_zero, List.flatten_cons, List.flatten_nil, List.append_nil, List.length_append] at hp
    apply BitVec.eq_of_toNat_eq
    rw [BitVec.toNat_sub, hp, BitVec.toNat_ofNat, BitVec.toNat_ofNat]
    omega
  have hn : (ptr v.ram 3 - 1#16).toNat = base + (s.prog.length + s.buf.length + (table s.vs).length + ((table s.ls).length - 1)) := by
    rw [hp', BitVec.toNat_ofNat]; omega
  have low : ∀ a : W, a.toNat < 0x600 → r a = v.ram a := by
    intro a ha
    rw [hr]
    apply upd_ne
    intro e
    rw [e, hn] at ha
    omega
  have T := h.tabs
  have L : Lays r base { s with ls := retype s.ls t }.areas := by
    rw [hr, hp', hv, retype_last]
    refine lays_set T.lays rfl ?_ ?_ ?_
    · intro j
      simp only [VS.areas]
      rw [hv, table_last]
      match j with
      | 0 => rfl
      | 1 => rfl
      | 2 => rfl
      | 3 => rfl
      | j + 4 => simp only [List.take_succ_cons, List.flatten_cons, List.length_append, List.length_set]
    · simp only [VS.areas, List.flatten_cons]
      rw [hv, table_last]
      have := set_mid (s.prog ++ s.buf ++ table s.vs) (table (us ++ [e])) (s.lad ++ List.flatten []) ((table (us ++ [e])).length - 1) t (by rw [← hv]; omega)
      simp only [List.append_assoc, List.length_append] at this
      rw [this]
      congr 1
      omega
    · simp only [VS.areas, List.flatten_cons, List.length_append]
      rw [← hv]
      omega
  refine h.change (s' := { s with ls := retype s.ls t }) (v' := { v with ram := r, z := z, stk := stk }) ⟨L, rfl, rfl, T.vok, ?_, ?_, ?_⟩ hro ?_ hz.mins (fun a ha => low a (by omega)) h.op rfl ?_
  · rw [hv, retype_last]
    have := T.lok
    intro x hx
    rcases List.mem_append.1 hx with hx | hx
    · exact this x (by rw [hv]; exact List.mem_append_left _ hx)
    · obtain rfl := List.mem_singleton.1 hx
      have := this e (by rw [hv]; simp)
      exact ⟨this.ne, this.chars, this.short⟩
  · show (r varCount).toNat = _
    rw [low _ (by decide)]; exact T.vcount
  · show (r lblCount).toNat = _
    rw [low _ (by decide)]
    have := T.lcount
    rw [hv] at this
    rw [hv, retype_last]
    simp only [slotsOf, List.map_append, List.map_cons, List.map_nil, List.sum_append, List.sum_cons, List.sum_nil, Ent.slots] at this ⊢
    rw [if_neg (by omega)] at this ⊢
    exact this
  · show word z.prgp z.prgph = ptr r 0
    rw [hz.prgp, hz.prgph]
    have : ptr r 0 = ptr v.ram 0 := by
      unfold ptr
      rw [low _ (by decide), low _ (by decide)]
    rw [this]; exact h.pptr
  · have := h.fits
    rw [hv, retype_last]
    simp only [VS.areas, List.flatten_cons, List.length_append] at this ⊢
    rw [table_last, List.length_set, ← hv]
    exact this

end

section
variable (err lerr : B)
local notation "Q" => jmpCode err lerr memCode
local notation "V" => natCode err lerr
variable {base : Nat} {s : VS} {m : M} {k : Code} {st : List Slot} {w : Word} {n : Nat}

/-- `E_LABEL_SET_TYPE`: it is the last label of the table that gets the type. -/
theorem v_LABELTYPE (h : VRep base s m.jv) (hs : m.stk = .ret k :: st) (hc : m.c = false) (ho : 0 < s.op) (hl : ∃ us e, s.ls = us ++ [e] ∧ e.ty.toNat < 128) (ht : s.last.toNat < 128) :
    Does47 err lerr base (.ok { s.back with ls := retype s.ls s.last }) 0 (varCode.E_LABEL_SET_TYPE Q) m k st := by
  obtain ⟨us, e, hle, hty⟩ := hl
  let m0 : M := { m with stk := .ret (.lb "lt_1" :: varCode.lt_1 Q) :: m.stk }
  have r0 : Reach V (varCode.E_LABEL_SET_TYPE Q) m (jmpCode.get_last_tok err lerr memCode) m0 := by
    refine ⟨1, ?_⟩
    rt_exec [varCode.E_LABEL_SET_TYPE.eq, jmp_in err lerr _ _ (jmpCode.get_last_tok.find ..)]
    rfl
  obtain ⟨m1, r1, R1, a1, c1, s1, F1, _, g1, _, x1⟩ := v_last err lerr (m := m0) (k := .lb "lt_1" :: varCode.lt_1 Q) (st := m.stk) (h.move (j := s.op) (o := m.jv.op) (SameC.refl _) h.op) rfl ho
  have s1' : m1.stk = .ret k :: st := s1.trans hs
  have hsz := h.size; have hlo := h.low
  have hp := R1.ptr_eq 3 (by omega)
  simp only [VS.areas, VS.back, List.take_succ_cons, List.take_zero, List.flatten_cons, List.flatten_nil, List.append_nil, List.length_append] at hp
  have hpos := table_pos us e
  rw [← hle] at hpos
  have hq : (ptr m1.ram 3 - 1#16).toNat = base + s.prog.length + s.buf.length + (table s.vs).length + (table s.ls).length - 1 := by
    rw [BitVec.toNat_sub, show (ptr m1.ram 3).toNat = _ from hp, BitVec.toNat_ofNat]
    omega
  have key : ∃ m', Reach V (.lb "lt_1" :: varCode.lt_1 Q) m1 k m' ∧ m'.jv = { m1.jv with stk := st, ram := upd m1.ram (ptr m1.ram 3 - 1#16) m1.a } ∧ m'.c = m1.c := by
    rw [← store_last (r := m1.ram) (c := lblEnd) (t := m1.a) (q := ptr m1.ram 3 - 1#16) rfl (by intro e; have := congrArg BitVec.toNat e; rw [hq] at this; change _ = 0xA9 at this; omega) (by decide)]
    refine ⟨?_, ⟨6, ?_⟩, ?_⟩
    rotate_left
    · rt_exec [varCode.lt_1.eq, s1']
      rfl
    · exact ⟨rfl, rfl⟩
  obtain ⟨m2, r2, v2, c2⟩ := key
  refine ⟨m2, r0.trans (r1.trans r2), by rw [c2, c1]; exact hc, congrArg JV.stk v2, ?_, ?_, ?_⟩
  · rw [v2]
    exact R1.label_type (s := s.back) hle ht hty (SameC.refl _) (by rw [a1]; rfl)
  · rw [v2]
    refine (VFr.move base m.jv (o := m.jv.op) (SameC.refl _)).trans h.low (F1.trans h.low ⟨rfl, rfl, ⟨rfl, rfl, rfl, rfl⟩, fun a h1 _ _ _ _ => upd_ne fun e => ?_⟩)
    have hf := R1.fits
    simp only [VS.areas, VS.back, List.flatten_cons, List.flatten_nil, List.length_append, List.length_nil] at hf
    rw [e] at h1
    change (ptr m1.ram 3 - 1#16).toNat < _ ∨ _ ≤ (ptr m1.ram 3 - 1#16).toNat at h1
    rw [hq] at h1
    omega
  · show m2.jv.z.cix.toNat = _
    rw [v2]; show m1.zp.cix.toNat = _; rw [x1]; rfl

/-- `E_VAR_SET_TYPE`: it is the last variable of the table that gets the type. -/
theorem v_SETTYPE (h : VRep base s m.jv) (hs : m.stk = .ret k :: st) (ho : 0 < s.op) (hl : ∃ us e, s.vs = us ++ [e] ∧ e.ty.toNat < 128) (hcount : slotsOf s.vs + 2 < 256) :
    Does47 err lerr base (if s.last.toNat % 2 = 1 then .fail { s.back with vs := retype s.vs s.last } else .ok { s.back with vs := retype s.vs s.last }) 0 (varCode.E_VAR_SET_TYPE Q) m k st := by
  obtain ⟨us, e, hle, hty⟩ := hl
  let m0 : M := { m with stk := .ret (.lb "st_1" :: varCode.st_1 Q) :: m.stk }
  have r0 : Reach V (varCode.E_VAR_SET_TYPE Q) m (jmpCode.get_last_tok err lerr memCode) m0 := by
    refine ⟨1, ?_⟩
    rt_exec [varCode.E_VAR_SET_TYPE.eq, jmp_in err lerr _ _ (jmpCode.get_last_tok.find ..)]
    rfl
  obtain ⟨m1, r1, R1, a1, c1, s1, F1, n1, g1, _, x1⟩ := v_last err lerr (m := m0) (k := .lb "st_1" :: varCode.st_1 Q) (st := m.stk) (h.move (j := s.op) (o := m.jv.op) (SameC.refl _) h.op) rfl ho
  have s1' : m1.stk = .ret k :: st := s1.trans hs
  have hsz := h.size; have hlo := h.low
  have hp := R1.ptr_eq 2 (by omega)
  simp only [VS.areas, VS.back, List.take_succ_cons, List.take_zero, List.flatten_cons, List.flatten_nil, List.append_nil, List.length_append] at hp
  have hpos := table_pos us e
  rw [← hle] at hpos
  have hq : (ptr m1.ram 2 - 1#16).toNat = base + s.prog.length + s.buf.length + (table s.vs).length - 1 := by
    rw [BitVec.toNat_sub, show (ptr m1.ram 2).toNat = _ from hp, BitVec.toNat_ofNat]
    omega
  have hvc : (m1.ram varCount).toNat = slotsOf s.vs := R1.tabs.vcount
  -- the count of variables
  have key1 : ∃ m', Reach V (.lb "st_1" :: varCode.st_1 Q) m1 (varCode.st_nf Q) m' ∧ (∃ r, m'.jv = { m1.jv with ram := r } ∧ (∀ a, a ≠ varCount → r a = m1.ram a) ∧ (r varCount).toNat = slotsOf (us ++ [{ e with ty := s.last }])) ∧ m'.a = m1.a := by
    have hs0 : slotsOf s.vs = slotsOf us + 1 := by
      rw [hle, slots_snoc, if_neg (by omega)]
    by_cases ht : 128 ≤ s.last.toNat
    · have hs1 : slotsOf (us ++ [{ e with ty := s.last }]) = slotsOf us + 3 := by
        rw [slots_snoc, if_pos ht]
      have nt : m1.n = true := n1.trans (decide_eq_true ht)
      refine ⟨?_, ⟨5, ?_⟩, ?_⟩
      rotate_left
      · rt_exec [varCode.st_1.eq, nt]
        rfl
      · refine ⟨⟨_, rfl, ?_, ?_⟩, rfl⟩
        · intro a ha
          show upd (upd m1.ram varCount _) varCount _ a = _
          rw [upd_ne ha, upd_ne ha]
        · show (upd (upd m1.ram varCount (m1.ram varCount + 1#8)) varCount (upd m1.ram varCount (m1.ram varCount + 1#8) varCount + 1#8) varCount).toNat = _
          rw [upd_at, upd_at, hs1]
          simp only [BitVec.toNat_add, hvc, BitVec.toNat_ofNat]
          omega
    · have hs1 : slotsOf (us ++ [{ e with ty := s.last }]) = slotsOf us + 1 := by
        rw [slots_snoc, if_neg ht]
      have nt : m1.n = false := n1.trans (decide_eq_false ht)
      refine ⟨?_, ⟨2, ?_⟩, ?_⟩
      rotate_left
      · rt_exec [varCode.st_1.eq, nt]
        rfl
      · exact ⟨⟨_, rfl, fun _ _ => rfl, by rw [hs1, ← hs0]; exact hvc⟩, rfl⟩
  obtain ⟨m2, r2, ⟨ra, v2, g2, hc2⟩, a2⟩ := key1
  have gr2 : m2.ram = ra := congrArg JV.ram v2
  have s2 : m2.stk = .ret k :: st := (congrArg JV.stk v2).trans s1'
  have pq : ptr m2.ram 2 = ptr m1.ram 2 := by
    rw [gr2]; unfold ptr; rw [g2 _ (by decide), g2 _ (by decide)]
  have key : ∃ m', Reach V (varCode.st_nf Q) m2 k m' ∧ m'.jv = { m2.jv with stk := st, ram := upd m2.ram (ptr m2.ram 2 - 1#16) m2.a } ∧ m'.c = lowBit m2.a := by
    rw [← store_last (r := m2.ram) (c := varEnd) (t := m2.a) (q := ptr m2.ram 2 - 1#16) rfl (by intro e; have := congrArg BitVec.toNat e; rw [pq, hq] at this; change _ = 0xA7 at this; omega) (by decide)]
    refine ⟨?_, ⟨6, ?_⟩, ?_⟩
    rotate_left
    · rt_exec [varCode.st_nf.eq, s2]
      rfl
    · exact ⟨rfl, rfl⟩
  obtain ⟨m3, r3, v3, c3⟩ := key
  rw [v2, gr2, a2, a1, ← gr2, pq, gr2] at v3
  have rep : VRep base { s.back with vs := retype s.vs s.last } m3.jv := by
    rw [v3]
    refine R1.var_type (s := s.back) hle s.last (SameC.refl _) ?_ ?_
    · intro a ha
      by_cases hb : a = ptr m1.ram 2 - 1#16
      · rw [hb]; show upd ra _ _ _ = upd m1.ram (ptr m1.ram 2 - 1#16) _ _; rw [upd_at, upd_at]
      · show upd ra _ _ _ = upd m1.ram (ptr m1.ram 2 - 1#16) _ _
        rw [upd_ne hb, upd_ne hb]; exact g2 a ha
    · show (upd ra _ _ _).toNat = _
      rw [upd_ne (by intro e; have := congrArg BitVec.toNat e; rw [hq] at this; change 0xAE = _ at this; omega)]
      exact hc2
  have fr : VFr base m.jv m3.jv := by
    rw [v3]
    refine (VFr.move base m.jv (o := m.jv.op) (SameC.refl _)).trans h.low (F1.trans h.low ⟨rfl, rfl, ⟨rfl, rfl, rfl, rfl⟩, fun a h1 _ h2 _ _ => ?_⟩)
    show upd ra _ _ _ = _
    rw [upd_ne]
    · exact g2 a (fun e => h2 (by rw [e]; rfl))
    · intro e
      have hf := R1.fits
      simp only [VS.areas, VS.back, List.flatten_cons, List.flatten_nil, List.length_append, List.length_nil] at hf
      rw [e] at h1
      change (ptr m1.ram 2 - 1#16).toNat < _ ∨ _ ≤ (ptr m1.ram 2 - 1#16).toNat at h1
      rw [hq] at h1
      omega
  have cx : m3.zp.cix.toNat = m.zp.cix.toNat + 0 := by
    show m3.jv.z.cix.toNat = _
    rw [v3]; show m1.zp.cix.toNat = _; rw [x1]; rfl
  rw [a2, a1] at c3
  by_cases ho' : s.last.toNat % 2 = 1
  · rw [if_pos ho']
    exact ⟨m3, r0.trans (r1.trans (r2.trans r3)), by rw [c3]; simp [lowBit, ho'], congrArg JV.stk v3, rep, fr, cx⟩
  · rw [if_neg ho']
    exact ⟨m3, r0.trans (r1.trans (r2.trans r3)), by rw [c3]; simp [lowBit, ho'], congrArg JV.stk v3, rep, fr, cx⟩

/-- `name_new` without a name: it returns to the caller of its caller. -/
theorem nn_none (m : M) {k k' : Code} {st : List Slot} (hs : m.stk = .ret k :: .ret k' :: st) (hv : m.zp.vlen = 0#8) :
    ∃ m', Reach memCode memCode.name_new m k' m' ∧ (∃ z, m'.jv = { m.jv with stk := st, z := z } ∧ SameC m.jv.z z ∧ z.cix = m.zp.cix) ∧ m'.c = true := by
  refine ⟨?_, ⟨11, ?_⟩, ?_⟩
  rotate_left
  · rt_exec [memCode.name_new.eq, memCode.vg_drop.eq, memCode.vg_end.eq, hs, hv]
    rfl
  · exact ⟨⟨_, rfl, ⟨rfl, rfl, rfl, rfl, rfl, rfl, rfl⟩, rfl⟩, rfl⟩

theorem vk_old (hc : m.c = false) (hs : m.stk = .ret k :: st) : ∃ m', Reach V (.lb "vk_1" :: varCode.vk_1 Q) m k m' ∧ m'.jv = { m.jv with stk := st } ∧ m'.c = true := by
  refine ⟨?_, ⟨5, ?_⟩, ?_⟩
  rotate_left
  · rt_exec [varCode.vk_1.eq, varCode.vs_nf.eq, varCode.vs_exit.eq, hc, hs]
    rfl
  · exact ⟨rfl, rfl⟩

theorem vk_name (hc : m.c = true) : ∃ m', Reach V (.lb "vk_1" :: varCode.vk_1 Q) m memCode.name_new m' ∧ ∃ z n, m' = { m with x := 4#8, c := true, z := z, n := n, stk := .ret (.lb "vk_2" :: varCode.vk_2 Q) :: m.stk } := by
  refine ⟨?_, ⟨4, ?_⟩, ?_⟩
  rotate_left
  · rt_exec [varCode.vk_1.eq, mem_in' err lerr _ _ memCode.name_new.find, hc]
    rfl
  · exact ⟨_, _, rfl⟩

theorem vk_end (m : M) : ∃ m', Reach V (.lb "vk_2" :: varCode.vk_2 Q) m (varCode.emit_varn Q) m' ∧ m'.jv = { m.jv with ram := upd m.ram varCount (m.ram varCount + 1#8) } ∧ m'.x = m.ram varCount := by
  refine ⟨?_, ⟨4, ?_⟩, ?_⟩
  rotate_left
  · rt_exec [varCode.vk_2.eq]
    rfl
  · exact ⟨rfl, rfl⟩

/-- The end of the creation of a variable. -/
theorem v_add {N : List B} {p : W} (h : VRep base s m.jv) (hs : m.stk = .ret k :: st) (hc : m.c = true) (hv : m.zp.vlen.toNat = N.length) (hp : m.namp = p) (hN : IsName N) (hl : N.length ≤ 129)
    (ht : TextAt m.ram p N) (hlow : TextLow base p N) (hcount : slotsOf s.vs < 255) (top : Nat) (htop : top = (memTop m.ram).toNat) :
    Does47 err lerr base (s.add base top N) 0 (.lb "vk_1" :: varCode.vk_1 Q) m k st := by
  obtain ⟨m1, r1, _, _, e1⟩ := vk_name err lerr hc
  have z1 : m1.zp = m.zp := by rw [e1]
  have g1 : m1.ram = m.ram := by rw [e1]
  have hne : N ≠ [] := by obtain ⟨d, l, h, _⟩ := hN; rw [h]; simp
  have hpos : 0 < N.length := List.length_pos_iff.2 hne
  have hlo := h.low
  have T := h.tabs
  unfold VS.add
  by_cases hf : base + s.areas.flatten.length + N.length + 1 < top
  · rw [if_pos hf]
    obtain ⟨m3, r3, s3, nm3, L3, k3⟩ := C38_new { m1 with stk := [.ret away] } away [] base s.areas 2 N (by omega) (by rw [e1]) rfl
      (by show m1.zp.mins = _; rw [z1]; exact h.mins) (by show TopOk m1.ram; rw [g1]; exact h.top) (by show Lays m1.ram _ _; rw [g1]; exact T.lays) hne hl (by show m1.zp.vlen.toNat = _; rw [z1]; exact hv)
      (by show TextAt m1.ram (word m1.zp.nam m1.zp.namh) _; rw [g1, z1]; rw [show word m.zp.nam m.zp.namh = p from hp]; exact ht)
      (by show TextLow _ (word m1.zp.nam m1.zp.namh) _; rw [z1]; rw [show word m.zp.nam m.zp.namh = p from hp]; exact hlow)
      (by show _ < (memTop m1.ram).toNat; rw [g1, ← htop]; exact hf)
    obtain ⟨r3', f3⟩ := mem_call err lerr new_suf (m := m1) (k := .lb "vk_2" :: varCode.vk_2 Q) (st := m.stk) (by rw [e1]) r3
    obtain ⟨m4, r4, v4, x4⟩ := vk_end err lerr { m3 with stk := m.stk }
    obtain ⟨b1, b2, b3, b4, _⟩ := nm3
    simp only [memF, memSpared, List.map_cons, List.map_nil, Zp.get, Prod.mk.injEq, List.cons.injEq] at f3
    obtain ⟨f1, f2⟩ := f3
    simp only [z1] at f1
    have Z : SameC m.jv.z m4.jv.z := by
      rw [v4]
      refine ⟨b1.trans (by rw [z1]; rfl), f1.2.2.2.2.2.2.2.2.2.2.2.2.2.2.2.2.2.2.2.2.1, f1.2.2.2.2.2.2.2.2.2.2.2.2.2.2.2.2.2.2.2.2.2.1, b2.trans (by rw [z1]; rfl), b3.trans (by rw [z1]; rfl),
        f1.2.2.2.2.2.2.2.2.2.2.2.2.2.2.2.2.2.1, f1.2.2.2.2.2.2.2.2.2.2.2.2.2.2.2.2.2.2.1⟩
    have g4 : m4.jv.ram = upd m3.ram varCount (m3.ram varCount + 1#8) := by rw [v4]
    have hb := T.lays.low
    obtain ⟨h1, h2⟩ := cell_free varCount (.inl rfl)
    obtain ⟨h3, h4⟩ := cell_free lblCount (.inr (.inl rfl))
    change ∀ a : W, NotPtr a → a ≠ saveX → a.toNat < base ∨ base + s.areas.flatten.length + N.length + 1 ≤ a.toNat → m3.ram a = m1.ram a at k3
    rw [g1] at k3
    have vc3 : m3.ram varCount = m.ram varCount := k3 _ h1 h2 (.inl (by show 0xAE < base; omega))
    have lc3 : m3.ram lblCount = m.ram lblCount := k3 _ h3 h4 (.inl (by show 0xAF < base; omega))
    have out : ∀ a : W, ¬ (0xA2 ≤ a.toNat ∧ a.toNat ≤ 0xAC) → a.toNat ≠ 0xAE → a.toNat < base ∨ top ≤ a.toNat → m4.jv.ram a = m.ram a := by
      intro a q1 q2 q3
      rw [g4, upd_ne (fun e => q2 (by rw [e]; rfl))]
      refine k3 a (fun b hb ee => ?_) (fun ee => ?_) (by omega)
      · rw [ee] at q1
        have : (memStart + BitVec.ofNat 16 b).toNat = 162 + b := by simp; omega
        omega
      · rw [ee] at q1; exact q1 ⟨by decide, by decide⟩
    have ea : grow s.areas 2 (Ent.bytes ⟨N, 0⟩) = (VS.areas { s with vs := s.vs ++ [⟨N, 0⟩] }) := by
      simp [grow, VS.areas, table]
    rw [ea] at L3
    have T4 : Tables m4.jv.ram base (VS.areas { s with vs := s.vs ++ [⟨N, 0⟩] }) (s.vs ++ [⟨N, 0⟩]) s.ls := by
      refine ⟨by rw [g4]; exact lays_upd L3 _ _ (by show 0xAE < 0x300; omega) h1, rfl, rfl, ?_, T.lok, ?_, ?_⟩
      · intro e he
        rcases List.mem_append.1 he with he | he
        · exact T.vok e he
        · obtain rfl := List.mem_singleton.1 he
          exact ⟨hne, hN.chars, by show N.length ≤ 254; omega⟩
      · rw [g4, upd_at, vc3, slots_append]
        have := T.vcount
        show (_ + 1#8).toNat = _ + 1
        rw [BitVec.toNat_add, show (m.ram varCount).toNat = _ from this]; simp; omega
      · rw [g4, upd_ne (by decide), lc3]; exact T.lcount
    have pl : (ptr m4.jv.ram 0) = ptr m.ram 0 := by
      apply BitVec.eq_of_toNat_eq
      rw [T4.lays.ptrs 0 (by omega), show (ptr m.ram 0).toNat = _ from T.lays.ptrs 0 (by omega)]; rfl
    have R4 : VRep base { s with vs := s.vs ++ [⟨N, 0⟩] } m4.jv := by
      refine h.change (s' := { s with vs := s.vs ++ [⟨N, 0⟩] }) T4 h.room ?_ Z.mins (fun a ha => out a (by omega) (by omega) (by omega)) ?_ rfl ?_
      · show word m4.jv.z.prgp m4.jv.z.prgph = _
        rw [Z.prgp, Z.prgph, pl]; exact h.pptr
      · rw [v4]; show m3.zp.opos.toNat = _; rw [f1.2.2.2.2.2.2.2.2.2.2.2.2.2.2.2.2.2.2.2.1]; exact h.op
      · rw [show (memTop m.jv.ram).toNat = top from htop.symm]
        have : (table (s.vs ++ [⟨N, 0⟩])).length = (table s.vs).length + (N.length + 1) := by
          rw [show table (s.vs ++ [⟨N, 0⟩]) = table s.vs ++ Ent.bytes ⟨N, 0⟩ by simp [table], List.length_append, Ent.bytes_length]
        simp only [VS.areas, List.flatten_cons, List.length_append] at hf ⊢
        rw [this]; omega
    have F4 : VFr base m.jv m4.jv := by
      refine ⟨?_, ?_, ⟨Z.inb, Z.inbh, Z.pptr, Z.pptrh⟩, fun a q1 q2 q3 _ _ => out a q2 q3 (by rw [htop]; exact q1)⟩
      · rw [v4]; show m3.out = _; rw [f2.1, e1]; rfl
      · rw [v4]; show m3.dev = _; rw [f2.2, e1]; rfl
    have s4 : m4.stk = .ret k :: st := (congrArg JV.stk v4).trans hs
    have := (v_varn err lerr R4 s4).pre err lerr (n0 := 0) (r1.trans ((r3'.more (jmp_in err lerr)).trans r4)) h.low F4 (by show m4.jv.z.cix.toNat = _; rw [v4]; show m3.zp.cix.toNat = _; rw [b4, z1]; rfl)
    have hx : m4.x = BitVec.ofNat 8 (slotsOf s.vs) := by
      rw [x4]; show m3.ram varCount = _
      rw [vc3]
      apply BitVec.eq_of_toNat_eq
      rw [show (m.ram varCount).toNat = _ from T.vcount, BitVec.toNat_ofNat]; omega
    rw [hx] at this
    exact this
  · rw [if_neg hf]
    obtain ⟨m3, r3, a3, _, _, _, _, _, e3⟩ := nn_start m1 2 (by omega) (by rw [e1]) (fun e => by rw [z1] at e; rw [e] at hv; simp at hv; omega)
    have g3 : m3.ram = m.ram := by rw [e3]; exact g1
    have q4 := h.ptr_eq 4 (by omega)
    have q5 := h.top
    have q6 := T.lays.high
    rw [List.take_of_length_le (by show 5 ≤ 5; omega)] at q4
    refine (r1.trans (r3.more (mem_in' err lerr))).fails (Fails.more (mem_in' err lerr) (aa_fails m3 (by rw [g3]; show (ptr m.jv.ram 4).toNat ≤ _; omega) ?_))
    rw [g3, a3, z1, ← htop, show (ptr m.ram 4).toNat = _ from q4]
    have : (add8 m.zp.vlen 1#8 false).toNat = N.length + 1 := by
      rw [add8, BitVec.toNat_ofNat, hv]
      show (N.length + 1 + 0) % 256 = _
      omega
    omega

/-- The name, or the name before a dot, that is next in the line. -/
def Word.text : Word → List B
  | .name N => N
  | .dotted N => N
  | .none => []

theorem Found.at {m m' : M} {vs : List Rt.Ent} {n : Nat} {N : List B} (h : Found m vs n (.name N) m' ∨ Found m vs n (.dotted N) m') :
    m'.zp.vlen.toNat = N.length ∧ m'.namp = idx m.bp m.zp.cix + BitVec.ofNat 16 (n - N.length) := by
  rcases h with h | h <;> exact ⟨h.1, h.2.1⟩

theorem nameAt_text {m : M} {b : Nat} {N : List B} {c : B} (h : NameAt m b N c) : TextAt m.ram (idx m.bp m.zp.cix + BitVec.ofNat 16 b) N := by
  have := (TextAt.append h.text).2
  rw [List.length_replicate] at this
  exact (TextAt.append this).1

theorem lookup_has {N : List B} {vs : List Rt.Ent} : (∃ e ∈ vs, e.name = N) ↔ ∃ p, lookup N vs = some p := by
  induction vs with
  | nil => simp [lookup]
  | cons e es ih =>
    simp only [lookup, List.mem_cons]
    by_cases h : e.name = N
    · rw [if_pos h]; exact ⟨fun _ => ⟨_, rfl⟩, fun _ => ⟨e, .inl rfl, h⟩⟩
    · rw [if_neg h]
      constructor
      · rintro ⟨x, rfl | hx, hn⟩
        · exact absurd hn h
        · obtain ⟨p, hp⟩ := ih.1 ⟨x, hx, hn⟩
          exact ⟨_, by rw [hp]; rfl⟩
      · rintro ⟨p, hp⟩
        cases hq : lookup N es with
        | none => rw [hq] at hp; simp at hp
        | some q =>
          obtain ⟨x, hx, hn⟩ := ih.2 ⟨q, hq⟩
          exact ⟨x, .inr hx, hn⟩

/-- `E_VAR_CREATE`. -/
theorem v_CREATE (h : VRep base s m.jv) (hs : m.stk = .ret k :: st) (hw : NextIs m w n) (hl : w.text.length ≤ 129)
    (hlow : w.text ≠ [] → TextLow base (idx m.bp m.zp.cix + BitVec.ofNat 16 (n - w.text.length)) w.text) (hcount : slotsOf s.vs < 255) :
    Does47 err lerr base (VAct.run base (memTop m.ram).toNat s w .create) n (varCode.E_VAR_CREATE Q) m k st := by
  let m0 : M := { m with stk := .ret (.lb "vk_1" :: varCode.vk_1 Q) :: m.stk }
  have r0 : Reach V (varCode.E_VAR_CREATE Q) m memCode.var_search m0 := by
    refine ⟨1, ?_⟩
    rt_exec [varCode.E_VAR_CREATE.eq, mem_in' err lerr _ _ memCode.var_search.find]
    rfl
  have hw0 : NextIs m0 w n := hw.of rfl rfl rfl
  obtain ⟨m1, z, r1, v1, hz, x1, _, F⟩ := v_search err lerr (m := m0) (k := .lb "vk_1" :: varCode.vk_1 Q) (st := m.stk) rfl h.tabs hw0
  have s1 : m1.stk = .ret k :: st := (congrArg JV.stk v1).trans hs
  have g1 : m1.ram = m.ram := congrArg JV.ram v1
  have R1 : VRep base s m1.jv := by rw [v1]; exact h.move (o := m.jv.op) (j := s.op) hz h.op
  have F1 : VFr base m.jv m1.jv := by rw [v1]; exact VFr.move base m.jv (o := m.jv.op) hz
  have add : ∀ N c b, NameAt m b N c → IsName N → n = b + N.length → w.text = N → m1.c = true → m1.zp.vlen.toNat = N.length → m1.namp = idx m.bp m.zp.cix + BitVec.ofNat 16 (n - N.length) →
      Does47 err lerr base (s.add base (memTop m.ram).toNat N) n (varCode.E_VAR_CREATE Q) m k st := by
    intro N c b hat hN hn hwt hc hv hp
    have e : n - N.length = b := by omega
    have hne : N ≠ [] := by obtain ⟨d, l, h, _⟩ := hN; rw [h]; simp
    rw [hwt] at hl hlow
    have := (v_add err lerr (N := N) R1 s1 hc hv hp hN hl (by rw [g1, e]; exact nameAt_text hat) (hlow hne) hcount (memTop m.ram).toNat (by rw [g1])).pre err lerr (n0 := n) (r0.trans r1) h.low F1 x1
    exact this
  cases hw with
  | name b N hN' =>
    obtain ⟨hN, c, hc, hat⟩ := hN'
    obtain ⟨f1, f2, f3⟩ := F
    show Does47 err lerr base (if ∃ e ∈ s.vs, e.name = N then VOut.fail s else s.add base (memTop m.ram).toNat N) _ _ _ _ _
    by_cases hex : ∃ e ∈ s.vs, e.name = N
    · rw [if_pos hex]
      obtain ⟨p, hp⟩ := lookup_has.1 hex
      rw [hp] at f3
      obtain ⟨m2, r2, v2, c2⟩ := vk_old err lerr f3.1 s1
      refine ⟨m2, r0.trans (r1.trans r2), c2, congrArg JV.stk v2, ?_, ?_, ?_⟩
      · rw [v2]; exact R1.move (o := m1.jv.op) (j := s.op) (SameC.refl _) R1.op
      · rw [v2]; exact F1.trans h.low (VFr.move base m1.jv (o := m1.jv.op) (SameC.refl _))
      · show m2.jv.z.cix.toNat = _
        rw [v2]; exact x1
    · rw [if_neg hex]
      have hn : lookup N s.vs = none := by
        cases hq : lookup N s.vs with
        | none => rfl
        | some q => exact absurd (lookup_has.2 ⟨q, hq⟩) hex
      rw [hn] at f3
      exact add N c b hat hN rfl rfl f3 f1 f2
  | dotted b N c hN hd hat => exact add N c b hat hN rfl rfl F.2.2 F.1 F.2.1
  | none _ hn =>
    obtain ⟨m2, r2, _, _, e2⟩ := vk_name err lerr F.2
    obtain ⟨m3, r3, ⟨z3, v3, hz3, x3⟩, c3⟩ := nn_none m2 (k := .lb "vk_2" :: varCode.vk_2 Q) (k' := k) (st := st) (by rw [e2, s1]) (by rw [e2]; exact F.1)
    have v2 : m2.jv = { m1.jv with stk := m2.stk } := by rw [e2]; rfl
    rw [v2] at v3 hz3
    refine ⟨m3, r0.trans (r1.trans (r2.trans (r3.more (mem_in' err lerr)))), c3, congrArg JV.stk v3, ?_, ?_, ?_⟩
    · rw [v3]; exact R1.move (o := m1.jv.op) (j := s.op) hz3 R1.op
    · rw [v3]; exact F1.trans h.low (VFr.move base m1.jv (o := m1.jv.op) hz3)
    · show m3.jv.z.cix.toNat = _
      rw [v3]; show z3.cix.toNat = _; rw [x3, e2]; exact x1

end
end FB.Eng
