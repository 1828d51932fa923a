import Verif.Eng.JOps
/-!
# The jumps in the native compiler: `EXIT`

`E_EXIT_LOOP` (`actions.asm:717-757`) inserts an entry in the stack of loops, under the entry of the loop to exit.
-/
namespace FB.Eng
open FB.Rt
open FB.Native (NS Ent LAd put wbytes ltNum)

theorem topBit_ofNat {a : Nat} (h : a < 256) : topBit (BitVec.ofNat 8 a) = decide (128 ≤ a) := by
  rw [topBit, BitVec.toNat_ofNat, Nat.mod_eq_of_lt h]

section
variable (err lerr : B) (rest : Code)
local notation "P" => jmpCode err lerr rest
variable {m : M}

theorem x_next (hy : topBit (m.y - 1#8 - 1#8 - 1#8) = false) (ht : topBit (m.ram (idx 0x400 (m.y - 1 - 1 - 1))) = true) :
    ∃ m', Reach P (jmpCode.el_retry err lerr rest) m (jmpCode.el_retry err lerr rest) m' ∧ m'.jv = m.jv ∧ m'.a = m.a ∧ m'.y = m.y - 1 - 1 - 1 := by
  have ht' : topBit (m.ram (idx 1024#16 (m.y - 1#8 - 1#8 - 1#8))) = true := ht
  refine ⟨?_, ⟨6, ?_⟩, ?_⟩
  rotate_left
  · rt_exec [jmpCode.el_retry.eq, hy, ht']
    rfl
  · exact ⟨rfl, rfl, rfl⟩

theorem x_none (hy : topBit (m.y - 1#8 - 1#8 - 1#8) = true) : Errs err lerr rest (jmpCode.el_retry err lerr rest) m := by
  refine ⟨?_, ⟨6, ?_⟩⟩
  rotate_left
  · rt_exec [jmpCode.el_retry.eq, jmpCode.loop_error.eq, hy]
    rfl

theorem x_bad (hy : topBit (m.y - 1#8 - 1#8 - 1#8) = false) (ht : topBit (m.ram (idx 0x400 (m.y - 1 - 1 - 1))) = false)
    (hc : addC (m.ram (idx 0x400 (m.y - 1 - 1 - 1))) (~~~ 2#8) true = false) : Errs err lerr rest (jmpCode.el_retry err lerr rest) m := by
  have ht' : topBit (m.ram (idx 1024#16 (m.y - 1#8 - 1#8 - 1#8))) = false := ht
  have hc' : addC (m.ram (idx 1024#16 (m.y - 1#8 - 1#8 - 1#8))) 253#8 true = false := hc
  refine ⟨?_, ⟨10, ?_⟩⟩
  rotate_left
  · rt_exec [jmpCode.el_retry.eq, jmpCode.loop_error.eq, hy, ht', hc']
    rfl

theorem x_full (hy : topBit (m.y - 1#8 - 1#8 - 1#8) = false) (ht : topBit (m.ram (idx 0x400 (m.y - 1 - 1 - 1))) = false)
    (hc : addC (m.ram (idx 0x400 (m.y - 1 - 1 - 1))) (~~~ 2#8) true = true) (hf : topBit (add8 m.a 2#8 true) = true) : Errs err lerr rest (jmpCode.el_retry err lerr rest) m := by
  have ht' : topBit (m.ram (idx 1024#16 (m.y - 1#8 - 1#8 - 1#8))) = false := ht
  have hc' : addC (m.ram (idx 1024#16 (m.y - 1#8 - 1#8 - 1#8))) 253#8 true = true := hc
  refine ⟨?_, ⟨13, ?_⟩⟩
  rotate_left
  · rt_exec [jmpCode.el_retry.eq, jmpCode.loop_error.eq, hy, ht', hc', hf]
    rfl

theorem x_found (hy : topBit (m.y - 1#8 - 1#8 - 1#8) = false) (ht : topBit (m.ram (idx 0x400 (m.y - 1 - 1 - 1))) = false)
    (hc : addC (m.ram (idx 0x400 (m.y - 1 - 1 - 1))) (~~~ 2#8) true = true) (hf : topBit (add8 m.a 2#8 true) = false) :
    ∃ m', Reach P (jmpCode.el_retry err lerr rest) m (jmpCode.el_move err lerr rest) m' ∧ m'.jv = { m.jv with stk := .byte (add8 m.a 2#8 true) :: m.stk, ram := upd m.ram 0xB4 (m.y - 1 - 1 - 1) } ∧
      m'.y = add8 m.a 2#8 true ∧ m'.zp = m.zp := by
  have ht' : topBit (m.ram (idx 1024#16 (m.y - 1#8 - 1#8 - 1#8))) = false := ht
  have hc' : addC (m.ram (idx 1024#16 (m.y - 1#8 - 1#8 - 1#8))) 253#8 true = true := hc
  refine ⟨?_, ⟨14, ?_⟩, ?_⟩
  rotate_left
  · rt_exec [jmpCode.el_retry.eq, hy, ht', hc', hf]
    rfl
  · exact ⟨rfl, rfl, rfl⟩

/-- The search of `E_EXIT_LOOP`. -/
theorem x_search {l : List Ent} (hl : LoopsAt m.ram l) (ht : ∀ e ∈ l, e.type < 256) (hr : 3 * l.length < 128) (hy : m.y = BitVec.ofNat 8 (3 * l.length)) :
    match NS.exitAt l with
    | none => Errs err lerr rest (jmpCode.el_retry err lerr rest) m
    | some (_, b) => ∃ m1, Reach P (jmpCode.el_retry err lerr rest) m (jmpCode.el_retry err lerr rest) m1 ∧ m1.jv = m.jv ∧ m1.a = m.a ∧ m1.y = BitVec.ofNat 8 (3 * b.length + 3) ∧
        3 * b.length + 3 < 128 ∧ topBit (m1.ram (idx 0x400 (m1.y - 1 - 1 - 1))) = false ∧ addC (m1.ram (idx 0x400 (m1.y - 1 - 1 - 1))) (~~~ 2#8) true = true := by
  induction l generalizing m with
  | nil =>
    exact x_none err lerr rest (by rw [hy]; decide)
  | cons e es ih =>
    simp only [List.length_cons] at hr hy
    have he := ht e (List.mem_cons_self ..)
    have y3 : m.y - 1 - 1 - 1 = BitVec.ofNat 8 (3 * es.length) := by
      rw [hy]; apply BitVec.eq_of_toNat_eq; simp [BitVec.toNat_ofNat]; omega
    have hn : topBit (m.y - 1#8 - 1#8 - 1#8) = false := by
      show topBit (m.y - 1 - 1 - 1) = false
      rw [y3, topBit_ofNat (by omega)]; simp; omega
    have rd : m.ram (idx 0x400 (m.y - 1 - 1 - 1)) = BitVec.ofNat 8 e.type := by
      rw [y3, show (0x400 : W) = BitVec.ofNat 16 0x400 from rfl, idx_stk _ _ (by omega)]; exact hl.1
    unfold NS.exitAt
    by_cases h1 : e.type ≥ 128
    · rw [if_pos h1]
      obtain ⟨m1, r1, v1, a1, y1⟩ := x_next err lerr rest hn (by rw [rd]; simp [topBit]; omega)
      have hram : m1.ram = m.ram := congrArg JV.ram v1
      have := ih (m := m1) (by rw [hram]; exact hl.2.2.2) (fun e he => ht e (List.mem_cons_of_mem _ he)) (by omega) (by rw [y1, y3])
      cases hx : NS.exitAt es with
      | none => rw [hx] at this; exact r1.errs this
      | some x =>
        obtain ⟨a, b⟩ := x
        rw [hx] at this
        obtain ⟨m2, r2, v2, a2, y2⟩ := this
        exact ⟨m2, r1.trans r2, v2.trans v1, a2.trans a1, y2⟩
    · rw [if_neg h1]
      have t0 : topBit (m.ram (idx 0x400 (m.y - 1 - 1 - 1))) = false := by rw [rd]; simp [topBit]; omega
      by_cases h2 : e.type < ltNum .PROC_DATA + 1
      · rw [if_pos h2]
        simp only
        change e.type < 2 at h2
        exact x_bad err lerr rest hn t0 (by rw [rd]; simp [addC]; omega)
      · rw [if_neg h2]
        change ¬ e.type < 2 at h2
        simp only
        refine ⟨m, ⟨0, rfl⟩, rfl, rfl, by rw [hy]; rfl, by omega, t0, ?_⟩
        rw [rd]; simp [addC]; omega

/-- Part of the stack of loops moved up by an entry. -/
def movedUp (r : W → B) (y s : Nat) : W → B := fun a => if 0x400 + y ≤ a.toNat ∧ a.toNat < 0x400 + s then r (a - 3) else r a

theorem x_move_step {y : Nat} (hy : m.y = BitVec.ofNat 8 (y + 1)) (hlt : y + 1 < 128) (c : Nat) (hc : m.ram 0xB4 = BitVec.ofNat 8 c) (hcy : c < y) :
    ∃ m', Reach P (jmpCode.el_move err lerr rest) m (jmpCode.el_move err lerr rest) m' ∧ m'.jv = { m.jv with ram := upd m.ram (BitVec.ofNat 16 (0x400 + y)) (m.ram (BitVec.ofNat 16 (0x3fd + y))) } ∧
      m'.y = BitVec.ofNat 8 y ∧ m'.zp = m.zp := by
  have hc' : m.ram 180#16 = BitVec.ofNat 8 c := hc
  have y1 : m.y - 1#8 = BitVec.ofNat 8 y := by
    rw [hy]; apply BitVec.eq_of_toNat_eq; simp [BitVec.toNat_ofNat]; omega
  have i1 : idx 1021#16 (BitVec.ofNat 8 y) = BitVec.ofNat 16 (1021 + y) := idx_stk _ _ (by omega)
  have i2 : idx 1024#16 (BitVec.ofNat 8 y) = BitVec.ofNat 16 (1024 + y) := idx_stk _ _ (by omega)
  have u : upd m.ram (BitVec.ofNat 16 (1024 + y)) (m.ram (BitVec.ofNat 16 (1021 + y))) 180#16 = BitVec.ofNat 8 c := by
    rw [upd_ne (wne (a := 180) (by omega) (by omega) (by omega))]; exact hc'
  have ne : ¬ BitVec.ofNat 8 y = BitVec.ofNat 8 c := by rw [of8 (by omega) (by omega)]; omega
  refine ⟨?_, ⟨5, ?_⟩, ?_⟩
  rotate_left
  · rt_exec [jmpCode.el_move.eq, y1, i1, i2, u, sub_eq0, ne]
    rfl
  · exact ⟨rfl, rfl, rfl⟩

theorem x_move_last {y : Nat} (hy : m.y = BitVec.ofNat 8 (y + 1)) (hlt : y + 1 < 128) (hc : m.ram 0xB4 = BitVec.ofNat 8 y) :
    ∃ m', Reach P (jmpCode.el_move err lerr rest) m (jmpCode.push_codep_y err lerr rest) m' ∧
      m'.jv = { m.jv with stk := .ret (.lb "el_1" :: jmpCode.el_1 err lerr rest) :: m.stk, ram := upd m.ram (BitVec.ofNat 16 (0x400 + y)) (m.ram (BitVec.ofNat 16 (0x3fd + y))) } ∧
      m'.y = BitVec.ofNat 8 y ∧ m'.a = 0#8 ∧ m'.zp = m.zp := by
  have hc' : m.ram 180#16 = BitVec.ofNat 8 y := hc
  have y1 : m.y - 1#8 = BitVec.ofNat 8 y := by
    rw [hy]; apply BitVec.eq_of_toNat_eq; simp [BitVec.toNat_ofNat]; omega
  have i1 : idx 1021#16 (BitVec.ofNat 8 y) = BitVec.ofNat 16 (1021 + y) := idx_stk _ _ (by omega)
  have i2 : idx 1024#16 (BitVec.ofNat 8 y) = BitVec.ofNat 16 (1024 + y) := idx_stk _ _ (by omega)
  have u : upd m.ram (BitVec.ofNat 16 (1024 + y)) (m.ram (BitVec.ofNat 16 (1021 + y))) 180#16 = BitVec.ofNat 8 y := by
    rw [upd_ne (wne (a := 180) (by omega) (by omega) (by omega))]; exact hc'
  refine ⟨?_, ⟨7, ?_⟩, ?_⟩
  rotate_left
  · rt_exec [jmpCode.el_move.eq, y1, i1, i2, u, sub_eq0]
    rfl
  · exact ⟨rfl, rfl, rfl, rfl⟩

theorem movedUp_step {r : W → B} {y s : Nat} (hs : y < s) (hlt : s < 128) :
    upd (movedUp r (y + 1) s) (BitVec.ofNat 16 (0x400 + y)) (movedUp r (y + 1) s (BitVec.ofNat 16 (0x3fd + y))) = movedUp r y s := by
  have e : movedUp r (y + 1) s (BitVec.ofNat 16 (0x3fd + y)) = r (BitVec.ofNat 16 (0x3fd + y)) := by
    rw [movedUp, if_neg]; rw [w16 (by omega)]; omega
  rw [e]
  funext a
  unfold upd movedUp
  by_cases h : a = BitVec.ofNat 16 (0x400 + y)
  · rw [if_pos h, h, w16 (by omega), if_pos (by omega)]
    congr 1
    apply BitVec.eq_of_toNat_eq
    rw [BitVec.toNat_sub, w16 (by omega), w16 (by omega)]
    show _ = (65536 - 3 + (0x400 + y)) % 65536
    omega
  · rw [if_neg h]
    have h' : a.toNat ≠ 0x400 + y := by
      intro e; apply h; apply BitVec.eq_of_toNat_eq; rw [w16 (by omega), e]
    by_cases h2 : 0x400 + (y + 1) ≤ a.toNat ∧ a.toNat < 0x400 + s
    · rw [if_pos h2, if_pos (by omega)]
    · rw [if_neg h2, if_neg (by omega)]

/-- The repetition of `E_EXIT_LOOP` that moves the entries. -/
theorem x_move {r : W → B} {c s : Nat} (hs : s < 128) (hcs : c < s) (hc : r 0xB4 = BitVec.ofNat 8 c) : ∀ (d : Nat) (m : M), c + 1 + d ≤ s → m.y = BitVec.ofNat 8 (c + 1 + d) → m.ram = movedUp r (c + 1 + d) s →
    ∃ m', Reach P (jmpCode.el_move err lerr rest) m (jmpCode.push_codep_y err lerr rest) m' ∧
      m'.jv = { m.jv with stk := .ret (.lb "el_1" :: jmpCode.el_1 err lerr rest) :: m.stk, ram := movedUp r c s } ∧ m'.y = BitVec.ofNat 8 c ∧ m'.a = 0#8 ∧ m'.zp = m.zp := by
  have b4 : ∀ y, movedUp r y s 0xB4 = r 0xB4 := by
    intro y; rw [movedUp, if_neg]; show ¬ (_ ≤ 0xB4 ∧ _); omega
  intro d
  induction d with
  | zero =>
    intro m h1 hy hm
    obtain ⟨m', r', v, y', a', z'⟩ := x_move_last err lerr rest (y := c) hy (by omega) (by rw [hm, b4, hc])
    refine ⟨m', r', ?_, y', a', z'⟩
    rw [v, hm, movedUp_step (by omega) hs]
  | succ d ih =>
    intro m h1 hy hm
    obtain ⟨m1, r1, v1, y1, z1⟩ := x_move_step err lerr rest (y := c + 1 + d) hy (by show c + 1 + d + 1 < 128; omega) c (by rw [hm, b4, hc]) (by omega)
    have hm1 : m1.ram = movedUp r (c + 1 + d) s := by
      have : m1.ram = _ := congrArg JV.ram v1
      rw [this]; show upd m.ram _ (m.ram _) = _
      rw [hm]; exact movedUp_step (y := c + 1 + d) (by omega) hs
    obtain ⟨m2, r2, v2, y2, a2, z2⟩ := ih m1 (by omega) y1 hm1
    have st1 : m1.stk = m.stk := congrArg JV.stk v1
    refine ⟨m2, r1.trans r2, ?_, y2, a2, z2.trans z1⟩
    rw [v2, v1, st1]

/-- An entry inserted in the stack of loops. -/
theorem LoopsAt.insert {r r' : W → B} {a b : List Ent} {x : Ent} (h : LoopsAt r (a ++ b)) (hb : ∀ i, i < 3 * b.length → r' (BitVec.ofNat 16 (0x400 + i)) = r (BitVec.ofNat 16 (0x400 + i)))
    (h1 : r' (BitVec.ofNat 16 (0x400 + 3 * b.length)) = BitVec.ofNat 8 x.type) (h2 : r' (BitVec.ofNat 16 (0x401 + 3 * b.length)) = BitVec.ofNat 8 x.pos)
    (h3 : r' (BitVec.ofNat 16 (0x402 + 3 * b.length)) = BitVec.ofNat 8 (x.pos / 256))
    (ha : ∀ i, 3 * b.length ≤ i → i < 3 * (a ++ b).length → r' (BitVec.ofNat 16 (0x403 + i)) = r (BitVec.ofNat 16 (0x400 + i))) : LoopsAt r' (a ++ x :: b) := by
  induction a with
  | nil => exact ⟨h1, h2, h3, LoopsAt.congr h hb⟩
  | cons e es ih =>
    obtain ⟨g1, g2, g3, g4⟩ := h
    change r (BitVec.ofNat 16 (0x400 + 3 * (es ++ b).length)) = _ at g1
    change r (BitVec.ofNat 16 (0x401 + 3 * (es ++ b).length)) = _ at g2
    change r (BitVec.ofNat 16 (0x402 + 3 * (es ++ b).length)) = _ at g3
    simp only [List.cons_append, List.length_cons] at ha
    have hlen : (es ++ x :: b).length = (es ++ b).length + 1 := by simp; omega
    have hle : 3 * b.length ≤ 3 * (es ++ b).length := by simp
    refine ⟨?_, ?_, ?_, ih g4 fun i hi hi' => ha i hi (by omega)⟩
    · show r' (BitVec.ofNat 16 (0x400 + 3 * (es ++ x :: b).length)) = _
      rw [hlen, ← g1, ← ha _ hle (by omega), show 0x400 + 3 * ((es ++ b).length + 1) = 0x403 + 3 * (es ++ b).length by omega]
    · have := ha (3 * (es ++ b).length + 1) (by omega) (by omega)
      rw [show 0x400 + (3 * (es ++ b).length + 1) = 0x401 + 3 * (es ++ b).length by omega] at this
      show r' (BitVec.ofNat 16 (0x401 + 3 * (es ++ x :: b).length)) = _
      rw [hlen, ← g2, ← this, show 0x401 + 3 * ((es ++ b).length + 1) = 0x403 + (3 * (es ++ b).length + 1) by omega]
    · have := ha (3 * (es ++ b).length + 2) (by omega) (by omega)
      rw [show 0x400 + (3 * (es ++ b).length + 2) = 0x402 + 3 * (es ++ b).length by omega] at this
      show r' (BitVec.ofNat 16 (0x402 + 3 * (es ++ x :: b).length)) = _
      rw [hlen, ← g3, ← this, show 0x402 + 3 * ((es ++ b).length + 1) = 0x403 + (3 * (es ++ b).length + 2) by omega]

theorem exitAt_eq {l a b : List Ent} (h : NS.exitAt l = some (a, b)) : l = a ++ b ∧ b.length < l.length := by
  induction l generalizing a b with
  | nil => simp [NS.exitAt] at h
  | cons e es ih =>
    unfold NS.exitAt at h
    split at h
    · cases hx : NS.exitAt es with
      | none => rw [hx] at h; simp at h
      | some x =>
        obtain ⟨a', b'⟩ := x
        rw [hx] at h
        cases h
        obtain ⟨i1, i2⟩ := ih hx
        exact ⟨by rw [i1]; rfl, by simp; omega⟩
    · split at h
      · simp at h
      · cases h; exact ⟨rfl, by simp⟩

variable {p : JPar} {n : NS} {k : Code} {st : List Slot} (h : JRep p n m.jv) (hs : m.stk = .ret k :: st)
include h hs

/-- `E_EXIT_LOOP`. -/
theorem m_exitLoop : Does err lerr rest p n.eExitLoop (jmpCode.E_EXIT_LOOP err lerr rest) m k st := by
  have hroom := h.room; have hcp := h.cp; have hbl := h.base_le; have hlt := h.prog_lt
  have hop := m.jv.op.isLt
  have spe : m.ram 179#16 = BitVec.ofNat 8 (3 * n.loops.length) := sp_eq h
  let m0 : M := { m with y := m.ram 179#16, a := m.ram 179#16, z := decide (m.ram 179#16 = 0#8), n := topBit (m.ram 179#16) }
  have r0 : Reach P (jmpCode.E_EXIT_LOOP err lerr rest) m (jmpCode.el_retry err lerr rest) m0 := by
    refine ⟨3, ?_⟩
    rt_exec [jmpCode.E_EXIT_LOOP.eq]
    rfl
  have hsr := x_search err lerr rest (m := m0) h.loops (fun e he => (h.ents e he).type) hroom spe
  refine Does.pre (m := m0) ?_ r0 rfl
  unfold NS.eExitLoop
  cases hx : NS.exitAt n.loops with
  | none => rw [hx] at hsr; exact hsr
  | some ab =>
    obtain ⟨a, b⟩ := ab
    rw [hx] at hsr
    simp only at hsr ⊢
    obtain ⟨m1, r1, v1, a1, y1, hb, t1, c1⟩ := hsr
    obtain ⟨el, hbl'⟩ := exitAt_eq hx
    have y3 : m1.y - 1 - 1 - 1 = BitVec.ofNat 8 (3 * b.length) := by
      rw [y1]; apply BitVec.eq_of_toNat_eq; simp [BitVec.toNat_ofNat]; omega
    have hn : topBit (m1.y - 1#8 - 1#8 - 1#8) = false := by
      show topBit (m1.y - 1 - 1 - 1) = false
      rw [y3, topBit_ofNat (by omega)]; simp; omega
    have ea : add8 m1.a 2#8 true = BitVec.ofNat 8 (3 * n.loops.length + 3) := by
      rw [a1]; show add8 (m.ram 179#16) 2#8 true = _
      rw [spe]; apply BitVec.eq_of_toNat_eq; simp [add8]; omega
    have hf : topBit (add8 m1.a 2#8 true) = decide (3 * (n.loops.length + 1) ≥ 128) := by
      rw [ea, topBit_ofNat (by omega)]; simp; omega
    by_cases hfull : 3 * (n.loops.length + 1) ≥ 128
    · rw [if_pos hfull]
      exact r1.errs (x_full err lerr rest hn t1 c1 (by rw [hf]; exact decide_eq_true hfull))
    · rw [if_neg hfull]
      obtain ⟨m2, r2, v2, y2, z2⟩ := x_found err lerr rest hn t1 c1 (by rw [hf]; exact decide_eq_false hfull)
      rw [y3, v1, ea] at v2
      have q2 : m2.ram = upd m.ram 0xB4 (BitVec.ofNat 8 (3 * b.length)) := by
        have : m2.ram = _ := congrArg JV.ram v2
        rw [this, show m1.ram = m0.ram from congrArg JV.ram v1]
      generalize hr0 : upd m.ram 0xB4 (BitVec.ofNat 8 (3 * b.length)) = r0' at *
      have hs3 : 3 * n.loops.length + 3 < 128 := by omega
      obtain ⟨m3, r3, v3, y3', a3, z3⟩ := x_move err lerr rest (r := r0') (c := 3 * b.length) (s := 3 * n.loops.length + 3) hs3 (by omega) (by rw [← hr0]; simp [upd])
        (3 * n.loops.length + 2 - 3 * b.length) m2 (by omega) (by rw [y2, ea]; congr 1; omega) (by
          rw [q2, show 3 * b.length + 1 + (3 * n.loops.length + 2 - 3 * b.length) = 3 * n.loops.length + 3 by omega]
          funext x; rw [movedUp, if_neg]; omega)
      have s2 : m2.stk = .byte (BitVec.ofNat 8 (3 * n.loops.length + 3)) :: .ret k :: st := by
        have e1 : m2.stk = _ := congrArg JV.stk v2
        have e2 : m1.stk = m0.stk := congrArg JV.stk v1
        rw [e1]; show .byte _ :: m1.stk = _
        rw [e2]; show .byte _ :: m.stk = _
        rw [hs]
      have s3 : m3.stk = .ret (.lb "el_1" :: jmpCode.el_1 err lerr rest) :: m2.stk := congrArg JV.stk v3
      have q3 : m3.ram = movedUp r0' (3 * b.length) (3 * n.loops.length + 3) := congrArg JV.ram v3
      have jv3 : m3.jv = { m.jv with stk := m3.stk, ram := m3.ram } := by rw [show m3.ram = m3.jv.ram from rfl, show m3.stk = m3.jv.stk from rfl, v3, v2]; rfl
      have o3 : m3.zp.opos = m.zp.opos := congrArg JV.op jv3
      have y4 : topBit (m3.y + 1#8 + 1#8 + 1#8) = false := by
        have : (m3.y + 1#8 + 1#8 + 1#8).toNat = 3 * b.length + 3 := by
          rw [y3', BitVec.toNat_add, BitVec.toNat_add, BitVec.toNat_add, BitVec.toNat_ofNat]; simp; omega
        simp only [topBit, this]; simp; omega
      have hb6 : topBit (rol8 m3.a false) = false := by rw [a3]; decide
      unfold Does
      simp only
      split
      · rename_i hcl
        have ho : ¬ (m3.zp.opos + 1#8 = 0#8 ∨ m3.zp.opos + 1#8 + 1#8 = 0#8) := by rw [o3, op_inc2 h]; omega
        obtain ⟨m4, r4, v4, c4, t4⟩ := j_push2 err lerr rest (m := m3) s3 y4 hb6 (fun h => ho (.inl h)) (fun h => ho (.inr h))
        have s4 : m4.stk = .byte (BitVec.ofNat 8 (3 * n.loops.length + 3)) :: .ret k :: st := (congrArg JV.stk v4).trans s2
        let m5 : M := { m4 with a := BitVec.ofNat 8 (3 * n.loops.length + 3), z := decide (BitVec.ofNat 8 (3 * n.loops.length + 3) = 0#8), n := topBit (BitVec.ofNat 8 (3 * n.loops.length + 3)),
                                ram := upd m4.ram 179#16 (BitVec.ofNat 8 (3 * n.loops.length + 3)), stk := st }
        have r5 : Reach P (.lb "el_1" :: jmpCode.el_1 err lerr rest) m4 k m5 := by
          refine ⟨4, ?_⟩
          rt_exec [jmpCode.el_1.eq, s4]
          rfl
        -- the memory at the end
        have y5 : m3.y + 1 + 1 + 1 = BitVec.ofNat 8 (3 * b.length + 3) := by
          rw [y3']; apply BitVec.eq_of_toNat_eq; simp [BitVec.toNat_add, BitVec.toNat_ofNat]
        have i1 : idx 0x3fd (BitVec.ofNat 8 (3 * b.length + 3)) = BitVec.ofNat 16 (0x400 + 3 * b.length) := by
          rw [show (0x3fd : W) = BitVec.ofNat 16 0x3fd from rfl, idx_stk _ _ (by omega)]; congr 1; omega
        have i2 : idx 0x3fe (BitVec.ofNat 8 (3 * b.length + 3)) = BitVec.ofNat 16 (0x401 + 3 * b.length) := by
          rw [show (0x3fe : W) = BitVec.ofNat 16 0x3fe from rfl, idx_stk _ _ (by omega)]; congr 1; omega
        have i3 : idx 0x3ff (BitVec.ofNat 8 (3 * b.length + 3)) = BitVec.ofNat 16 (0x402 + 3 * b.length) := by
          rw [show (0x3ff : W) = BitVec.ofNat 16 0x3ff from rfl, idx_stk _ _ (by omega)]; congr 1; omega
        have cp3 : m3.jv.cp = BitVec.ofNat 16 n.cp := by rw [jv3]; exact h.cp_eq
        have q4 : m4.ram = upd (upd (upd (upd m3.ram 0xB3 (BitVec.ofNat 8 (3 * b.length + 3))) (BitVec.ofNat 16 (0x400 + 3 * b.length)) 0#8) (BitVec.ofNat 16 (0x401 + 3 * b.length)) (BitVec.ofNat 8 n.cp))
            (BitVec.ofNat 16 (0x402 + 3 * b.length)) (BitVec.ofNat 8 (n.cp / 256)) := by
          have : m4.ram = m3.jv.pushed m3.y m3.a := congrArg JV.ram v4
          rw [this, JV.pushed, y5, i1, i2, i3, cp3, lo_ofNat, hi_ofNat _ (by omega), a3]; rfl
        have far : ∀ x, x < 65536 → x ≠ 0xB3 → ¬ (0x400 + 3 * b.length ≤ x ∧ x < 0x403 + 3 * b.length) → m5.ram (BitVec.ofNat 16 x) = m3.ram (BitVec.ofNat 16 x) := by
          intro x h1 h2 h3
          show upd m4.ram 179#16 _ _ = _
          rw [upd_ne (wne (b := 179) h1 (by omega) h2), q4, upd_ne (wne h1 (by omega) (by omega)), upd_ne (wne h1 (by omega) (by omega)), upd_ne (wne h1 (by omega) (by omega))]
          exact upd_ne (wne (b := 0xB3) h1 (by omega) h2)
        have mv : ∀ x, x < 65536 → ¬ (0x400 + 3 * b.length ≤ x ∧ x < 0x403 + 3 * n.loops.length) → m3.ram (BitVec.ofNat 16 x) = r0' (BitVec.ofNat 16 x) := by
          intro x h1 h2
          rw [q3, movedUp, if_neg]; rw [w16 h1]; omega
        have mv2 : ∀ x, 0x400 + 3 * b.length ≤ x → x < 0x400 + 3 * n.loops.length → m3.ram (BitVec.ofNat 16 (x + 3)) = r0' (BitVec.ofNat 16 x) := by
          intro x h1 h2
          rw [q3, movedUp, if_pos (by rw [w16 (by omega)]; omega)]
          congr 1
          rw [BitVec.ofNat_add]; exact BitVec.add_sub_cancel ..
        have b4 : ∀ x, x < 65536 → x ≠ 0xB4 → r0' (BitVec.ofNat 16 x) = m.ram (BitVec.ofNat 16 x) := by
          intro x h1 h2
          rw [← hr0]; exact upd_ne (wne (b := 0xB4) h1 (by omega) h2)
        have hlen : (a ++ ⟨ltNum .EXIT, n.cp⟩ :: b).length = n.loops.length + 1 := by rw [el]; simp; omega
        have eqo : m5.jv = { m.jv with ram := m5.ram, op := m.jv.op + 1 + 1, stk := st } := by
          have : m4.jv = { m.jv with stk := m4.stk, ram := m4.ram, op := m.jv.op + 1 + 1 } := by
            rw [show m4.ram = m4.jv.ram from rfl, show m4.stk = m4.jv.stk from rfl, v4, jv3]
          show ({ m4.jv with stk := st, ram := m5.ram } : JV) = _
          rw [this]
        have o2 : (m.jv.op + 1 + 1).toNat = m.jv.op.toNat + 2 := by rw [BitVec.toNat_add, BitVec.toNat_add]; simp; omega
        have S := h.stack (r := m5.ram) (l := a ++ ⟨ltNum .EXIT, n.cp⟩ :: b) ?_ ?_ (by rw [hlen]; omega) ?_ ?_ (m.jv.op + 1 + 1)
        · refine ⟨m5, r1.trans (r2.trans (r3.trans (r4.trans r5))), ⟨?_, ?_, rfl⟩, c4, trivial⟩
          · rw [eqo]
            have := S.1.stk st
            rw [o2, ← Nat.add_assoc, ← h.cp] at this
            exact this
          · rw [eqo]; exact S.2.trans (Fr.stk st)
        · intro x g1 g2 g3
          have e : x = BitVec.ofNat 16 x.toNat := by simp
          have n1 : x.toNat ≠ 0xB3 := fun e' => g1 (by rw [e, e']; rfl)
          have n2 : x.toNat ≠ 0xB4 := fun e' => g2 (by rw [e, e']; rfl)
          rw [e, far _ x.isLt n1 (by omega), mv _ x.isLt (by omega), b4 _ x.isLt n2]; rfl
        · have : m5.ram 0xB3 = BitVec.ofNat 8 (3 * n.loops.length + 3) := by
            show upd m4.ram 179#16 (BitVec.ofNat 8 (3 * n.loops.length + 3)) 179#16 = _
            simp [upd]
          rw [this, hlen, BitVec.toNat_ofNat]; omega
        · have hl := h.loops
          rw [el] at hl
          have ll : n.loops.length = a.length + b.length := by rw [el]; simp
          refine LoopsAt.insert hl ?_ ?_ ?_ ?_ ?_
          · intro i hi
            rw [far _ (by omega) (by omega) (by omega), mv _ (by omega) (by omega), b4 _ (by omega) (by omega)]; rfl
          · show upd m4.ram 179#16 _ _ = _
            rw [upd_ne (wne (b := 179) (by omega) (by omega) (by omega)), q4, upd_ne (wne (by omega) (by omega) (by omega)), upd_ne (wne (by omega) (by omega) (by omega))]
            simp [upd, ltNum]
          · show upd m4.ram 179#16 _ _ = _
            rw [upd_ne (wne (b := 179) (by omega) (by omega) (by omega)), q4, upd_ne (wne (by omega) (by omega) (by omega))]
            simp [upd]
          · show upd m4.ram 179#16 _ _ = _
            rw [upd_ne (wne (b := 179) (by omega) (by omega) (by omega)), q4]
            simp [upd]
          · intro i hi hi'
            rw [← el] at hi'
            rw [far _ (by omega) (by omega) (by omega), show 0x403 + i = 0x400 + i + 3 by omega, mv2 _ (by omega) (by omega), b4 _ (by omega) (by omega)]; rfl
        · intro e he
          rcases List.mem_append.1 he with he | he
          · exact h.ents e (by rw [el]; exact List.mem_append_left _ he)
          · rcases List.mem_cons.1 he with rfl | he
            · exact ⟨by simp [ltNum], by simp only; omega, by simp only; omega, fun _ => by simp only; omega⟩
            · exact h.ents e (by rw [el]; exact List.mem_append_right _ he)
      · exact r1.errs (r2.errs (r3.errs (j_push_long err lerr rest y4 hb6 (by rw [o3]; exact (op_inc2 h).2 (by omega)))))

end
end FB.Eng
