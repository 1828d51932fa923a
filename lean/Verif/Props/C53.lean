import Verif.Eng.Eof
import Verif.Props.C45
/-!
# C53: the end of the program in the native compiler
-/
namespace FB.Eng
open FB.Rt
open FB.Native (NS LAd)

section
variable (msg : W)
local notation "P" => eofCode msg

/-- The check of all the entries of the list of addresses. -/
theorem eof_labels : ∀ (es : List LAd) (a : Nat) (m : M), LabsAt m.ram a es → (∀ e ∈ es, e.st < 256) → (lab m.ram).toNat = a → (lap m.ram).toNat = a + 4 * es.length → 0x680 ≤ a →
    a + 4 * es.length ≤ 65280 →
    ((∀ e ∈ es, e.st ≠ 0) → ∃ m', Reach P (eofCode.parse_eof msg) m (eofCode.chk_loop msg) m' ∧ CKeep m m') ∧
    ((∃ e ∈ es, e.st = 0) → ∃ m', Reach P (eofCode.parse_eof msg) m (eofCode.parser_error msg) m' ∧ CKeep m m' ∧ m'.y = 1#8) := by
  intro es
  induction es with
  | nil =>
    intro a m _ _ h1 h2 _ _
    refine ⟨fun _ => f_end msg m (BitVec.eq_of_toNat_eq (by rw [h1, h2]; simp)), fun ⟨e, he, _⟩ => by simp at he⟩
  | cons e es ih =>
    intro a m hL hst h1 h2 ha hm
    obtain ⟨-, l2, -, -, l5⟩ := hL
    rw [List.length_cons] at h2 hm
    have eb : lab m.ram = BitVec.ofNat 16 a := BitVec.eq_of_toNat_eq (by rw [h1, w16 (by omega)])
    obtain ⟨m1, r1, k1, y1, c1, w1⟩ := f_more msg m (by omega) (by omega)
    have e1 : lab m1.ram + 1#16 = BitVec.ofNat 16 (a + 1) := by
      rw [w1, eb]
      apply BitVec.eq_of_toNat_eq
      simp
    have v1 : m1.ram (lab m1.ram + 1#16) = BitVec.ofNat 8 e.st := by rw [e1, w1]; exact l2
    have s1 := hst e (List.mem_cons_self ..)
    by_cases h0 : e.st = 0
    · refine ⟨fun h => absurd h0 (h e (List.mem_cons_self ..)), fun _ => ?_⟩
      obtain ⟨m2, r2, k2, y2⟩ := f_bad msg m1 y1 (by rw [v1, h0])
      exact ⟨m2, r1.trans r2, k1.trans k2, y2⟩
    · obtain ⟨m2, r2, k2, t2⟩ := f_good msg m1 y1 c1 (by
        rw [v1]
        intro h
        have := congrArg BitVec.toNat h
        rw [BitVec.toNat_ofNat, Nat.mod_eq_of_lt (by omega)] at this
        exact h0 this) (by rw [w1]; omega)
      rw [w1, h1] at t2
      have K := k1.trans k2
      have p2 : lap m2.ram = lap m.ram := by rw [lap, lap, K.ram _ (by decide) (by decide), K.ram _ (by decide) (by decide)]
      obtain ⟨i1, i2⟩ := ih (a + 4) m2 (l5.congr fun i hi1 hi2 => K.ram _ (wne (b := 168) (by omega) (by omega) (by omega)) (wne (b := 169) (by omega) (by omega) (by omega))) (fun e he => hst e (List.mem_cons_of_mem _ he))
        t2 (by rw [p2, h2]; omega) (by omega) (by omega)
      refine ⟨fun h => ?_, fun ⟨e', he', h'⟩ => ?_⟩
      · obtain ⟨m3, r3, k3⟩ := i1 fun e he => h e (List.mem_cons_of_mem _ he)
        exact ⟨m3, r1.trans (r2.trans r3), K.trans k3⟩
      · have he2 : e' ∈ es := by
          rcases List.mem_cons.1 he' with rfl | h
          · exact absurd h' h0
          · exact h
        obtain ⟨m3, r3, k3, y3⟩ := i2 ⟨e', he2, h'⟩
        exact ⟨m3, r1.trans (r2.trans r3), K.trans k3, y3⟩

/-- The table of messages is in the memory, away from `laddr_buf`. -/
def MsgsAt (r : W → B) : Prop := ∀ i (h : i < errImage.length), r (msg + BitVec.ofNat 16 (i + 1)) = errImage[i] ∧ msg + BitVec.ofNat 16 (i + 1) ≠ 0xA8 ∧ msg + BitVec.ofNat 16 (i + 1) ≠ 0xA9

theorem msg_enc {r : W → B} : ∀ (t : List B) (o : Nat), t ≠ [] → (∀ c ∈ t, c.toNat < 128) → o + t.length ≤ 256 → (∀ i (h : i < (errEnc t).length), r (msg + BitVec.ofNat 16 (o + i)) = (errEnc t)[i]) → MsgAt r msg o t := by
  intro t
  induction t with
  | nil => intro _ h; exact absurd rfl h
  | cons c t ih =>
    intro o _ hc hl h
    cases t with
    | nil => exact ⟨h 0 (by simp [errEnc]), hc c (List.mem_cons_self ..), by simp at hl; omega⟩
    | cons d t =>
      refine ⟨h 0 (by simp [errEnc]), hc c (List.mem_cons_self ..), ih (o + 1) (by simp) (fun x hx => hc x (List.mem_cons_of_mem _ hx)) (by simp at hl ⊢; omega) fun i hi => ?_⟩
      have := h (i + 1) (by simp [errEnc] at hi ⊢; omega)
      rw [Nat.add_assoc, Nat.add_comm 1 i, this]
      simp [errEnc]

theorem msg_at {r : W → B} (h : MsgsAt msg r) {pre t post : List B} (he : errImage = pre ++ errEnc t ++ post) (ht : t ≠ []) (hc : ∀ c ∈ t, c.toNat < 128) (hl : pre.length + 1 + t.length ≤ 256) :
    MsgAt r msg (pre.length + 1) t :=
  msg_enc msg _ _ ht hc hl fun i hi => by
    have hlt : pre.length + i < errImage.length := by rw [he]; simp; omega
    have := (h (pre.length + i) hlt).1
    rw [show pre.length + 1 + i = pre.length + i + 1 by omega, this]
    simp only [he]
    rw [List.getElem_append_left (by simp; omega), List.getElem_append_right (by omega)]
    simp

/-- The message that is at each of the offsets that the code uses. -/
theorem msg_all {r : W → B} (h : MsgsAt msg r) : MsgAt r msg 1 (errTexts.getD 0 []) ∧ MsgAt r msg 12 (errTexts.getD 1 []) ∧ MsgAt r msg 39 (errTexts.getD 4 []) := by
  refine ⟨?_, ?_, ?_⟩
  · exact msg_at msg h (pre := []) (post := (errTexts.drop 1).flatMap errEnc) rfl (by decide) (by decide) (by decide)
  · exact msg_at msg h (pre := (errTexts.take 1).flatMap errEnc) (post := (errTexts.drop 2).flatMap errEnc) rfl (by decide) (by decide) (by decide)
  · exact msg_at msg h (pre := (errTexts.take 4).flatMap errEnc) (post := []) rfl (by decide) (by decide) (by decide)

theorem msgs_keep {m m' : M} (h : MsgsAt msg m.ram) (k : CKeep m m') : MsgsAt msg m'.ram := fun i hi => by
  obtain ⟨h1, h2, h3⟩ := h i hi
  exact ⟨(k.ram _ h2 h3).trans h1, h2, h3⟩

/-- Specification: characters written to the channel of the machine. -/
def written (m : M) (t : String) : List (B × B) := t.toList.map fun c => (m.zp.chn, BitVec.ofNat 8 c.toNat)

/-- The end with a message: the carry is set, the message is written, and nothing else changes but `laddr_buf` and `IOERROR`. -/
def EndsWith (m : M) (t : String) : Prop := ∃ m', Reach P (eofCode.parse_eof msg) m (eofCode.EXE_END msg) m' ∧ m'.c = true ∧ m'.out = m.out ++ written m t ∧
  m'.zp = { m.zp with ioerr := m'.zp.ioerr } ∧ (∀ a : W, a ≠ laBuf → a ≠ laBuf1 → m'.ram a = m.ram a) ∧ m'.stk = m.stk ∧ m'.sl = m.sl ∧ m'.sh = m.sh

variable {p : JPar} {n : NS} {m : M}

theorem eof_start (h : JRep p n m.jv) : ((∀ e ∈ n.lab, e.st ≠ 0) → ∃ m', Reach P (eofCode.parse_eof msg) m (eofCode.chk_loop msg) m' ∧ CKeep m m') ∧
    ((∃ e ∈ n.lab, e.st = 0) → ∃ m', Reach P (eofCode.parse_eof msg) m (eofCode.parser_error msg) m' ∧ CKeep m m' ∧ m'.y = 1#8) := by
  have h1 := h.low; have h2 := h.base_le; have h3 := h.below; have h4 := h.fits; have h5 := h.topOk
  exact eof_labels msg n.lab p.lbuf m h.lab (fun e he => (h.labs e he).st) h.lbuf h.lptr (by omega) (by omega)

/-- At the end of the source with all the loops closed and all the labels defined, the compiler adds the token `END` (0) to the program and returns without error; nothing else in the memory changes but `laddr_buf`. -/
theorem C53_accepts (h : JRep p n m.jv) {k : Code} {st : List Slot} (hs : m.stk = .ret k :: st) (hl : n.loops = []) (hd : ∀ e ∈ n.lab, e.st ≠ 0) (ho : n.cp < p.prog + 255) :
    ∃ m', Reach P (eofCode.parse_eof msg) m k m' ∧ m'.c = false ∧ m'.stk = st ∧ m'.zp = { m.zp with opos := m.zp.opos + 1#8 } ∧ m'.ram (BitVec.ofNat 16 n.cp) = 0#8 ∧
      (∀ a : W, a ≠ laBuf → a ≠ laBuf1 → a ≠ BitVec.ofNat 16 n.cp → m'.ram a = m.ram a) ∧ m'.out = m.out ∧ m'.sl = m.sl ∧ m'.sh = m.sh := by
  obtain ⟨m1, r1, k1⟩ := (eof_start msg h).1 hd
  have hsp := h.sp
  rw [hl] at hsp
  have z1 : m1.ram 0xB3 = 0#8 := by
    rw [k1.ram _ (by decide) (by decide)]
    exact BitVec.eq_of_toNat_eq hsp
  have hcp : n.cp = p.prog + m.zp.opos.toNat := h.cp
  obtain ⟨m2, r2, c2, s2, p2, w2, l2, h2, o2, -⟩ := f_ok msg m1 z1 (k1.stk.trans hs) (by
    rw [k1.zp]
    intro e
    rw [e] at hcp
    simp at hcp
    omega)
  have hpr : (word m.zp.prgp m.zp.prgph).toNat = p.prog := h.prog
  have e : idx (word m1.zp.prgp m1.zp.prgph) m1.zp.opos = BitVec.ofNat 16 n.cp := by
    rw [k1.zp, idx, hcp, ← hpr]
    apply BitVec.eq_of_toNat_eq
    simp
  rw [e] at w2
  refine ⟨m2, r1.trans r2, c2, s2, by rw [p2, k1.zp], by rw [w2, upd_at], fun a h1 h2 h3 => by rw [w2, upd_ne h3, k1.ram a h1 h2], o2.trans k1.out, l2.trans k1.sl, h2.trans k1.sh⟩

/-- With a label that is used and not defined, the compiler ends with the message. -/
theorem C53_label (h : JRep p n m.jv) (hm : MsgsAt msg m.ram) (hd : ∃ e ∈ n.lab, e.st = 0) : EndsWith msg m "undef label" := by
  obtain ⟨m1, r1, k1, y1⟩ := (eof_start msg h).2 hd
  obtain ⟨m2, r2, c2, k2⟩ := e_msg msg _ m1 (by rw [y1]; exact (msg_all msg (msgs_keep msg hm k1)).1)
  refine ⟨m2, r1.trans r2, c2, ?_, by rw [k2.zp, k1.zp], fun a h1 h2 => by rw [k2.ram, k1.ram a h1 h2], k2.stk.trans k1.stk, k2.sl.trans k1.sl, k2.sh.trans k1.sh⟩
  rw [k2.out, k1.out, k1.zp]
  rfl

/-- With all the labels defined and a loop, procedure or `IF` open, the compiler ends with the other message. -/
theorem C53_loop (h : JRep p n m.jv) (hm : MsgsAt msg m.ram) (hd : ∀ e ∈ n.lab, e.st ≠ 0) (hl : n.loops ≠ []) : EndsWith msg m "no end loop/proc/if" := by
  obtain ⟨m1, r1, k1⟩ := (eof_start msg h).1 hd
  have hsp := h.sp
  have hlen : 0 < n.loops.length := List.length_pos_iff.2 hl
  obtain ⟨m2, r2, k2, y2⟩ := f_open msg m1 (by
    rw [k1.ram _ (by decide) (by decide)]
    intro e
    have hsp' : (m.ram 0xB3).toNat = 3 * n.loops.length := hsp
    rw [e, show (0#8).toNat = 0 from rfl] at hsp'
    omega)
  have K := k1.trans k2
  obtain ⟨m3, r3, c3, k3⟩ := e_msg msg _ m2 (by rw [y2]; exact (msg_all msg (msgs_keep msg hm K)).2.2)
  refine ⟨m3, r1.trans (r2.trans r3), c3, ?_, by rw [k3.zp, K.zp], fun a h1 h2 => by rw [k3.ram, K.ram a h1 h2], k3.stk.trans K.stk, k3.sl.trans K.sl, k3.sh.trans K.sh⟩
  rw [k3.out, K.out, K.zp]
  rfl

theorem jrep_of {v v' : JV} (h : JRep p n v) (hr : v'.ram = v.ram) (h1 : v'.z.prgp = v.z.prgp) (h2 : v'.z.prgph = v.z.prgph) (h3 : v'.z.mins = v.z.mins) (h4 : v'.op = v.op) : JRep p n v' := by
  have hp : v'.prog = v.prog := by rw [JV.prog, JV.prog, h1, h2]
  have hl : v'.rel = v.rel := by rw [JV.rel, JV.rel, hr]
  constructor
  all_goals first | rw [hr] | rw [hp] | rw [h3] | rw [h4] | rw [hl] | skip
  all_goals first | rw [hp] | skip
  · exact h.low
  · exact h.base_le
  · exact h.prog
  · exact h.pptr
  · exact h.below
  · exact h.lbuf
  · exact h.top
  · exact h.topOk
  · exact h.ord
  · exact h.mins
  · exact h.rel
  · exact h.cp
  · exact h.mem
  · exact h.sp
  · exact h.room
  · exact h.loops
  · exact h.ents
  · exact h.last
  · exact h.lab
  · exact h.lptr
  · exact h.labs
  · exact h.fits

/-- Specification: the compiler has all of its memory free from `w`, as `parser_alloc_init` leaves it (C39). -/
structure Free (w top : Nat) (m : M) : Prop where
  low : 0x680 ≤ w
  room : w + 256 ≤ top
  memtop : (memTop m.ram).toNat = top
  topOk : top ≤ 65280
  prog : (ptr m.ram 0).toNat = w
  same : word m.zp.prgp m.zp.prgph = ptr m.ram 0
  rest : ∀ j, 1 ≤ j → j ≤ 4 → (ptr m.ram j).toNat = w + 256
  mins : m.zp.mins = 0x88

/-- The start of the compiler: the memory holds a program with no code, no loops, no names and no labels, and the number of lines is 0. -/
theorem C53_start {w top : Nat} (h : Free w top m) : ∃ m', Reach P (eofCode.parser_start msg) m (eofCode.parse_line msg) m' ∧
    Holds ⟨w, (word (m.ram relocA) (m.ram relocA1)).toNat, w, w + 256, top⟩ [] { mem := fun a => (m.ram (BitVec.ofNat 16 a)).toNat, cp := w, last := (m.ram lastLabel).toNat } m' ∧
    m'.zp.bufp = m.zp.bufp ∧ m'.zp.bufph = m.zp.bufph ∧ m'.stk = m.stk ∧ m'.out = m.out ∧ word (m'.ram lineNum) (m'.ram lineNum1) = 0 ∧ (m'.ram varCount) = 0 ∧
    ∀ a : W, a ∉ [savedStk, varCount, lblCount, varSp, loopSp, lineNum, lineNum1] → m'.ram a = m.ram a := by
  obtain ⟨m1, r1, z1, s1, l1, h1, o1, d1, w0, w1⟩ := f_start msg m
  have hp : ∀ j, j ≤ 4 → ptr m1.ram j = ptr m.ram j := by
    intro j hj
    rcases (by omega : j = 0 ∨ j = 1 ∨ j = 2 ∨ j = 3 ∨ j = 4) with rfl | rfl | rfl | rfl | rfl <;> rw [ptr, ptr, w1 _ (by decide), w1 _ (by decide)]
  have ht : memTop m1.ram = memTop m.ram := by rw [memTop, memTop, w1 _ (by decide), w1 _ (by decide)]
  have g0 := h.low; have g1 := h.room; have g2 := h.topOk
  have c0 : m1.ram lblCount = 0#8 := w0 _ (by decide)
  refine ⟨m1, r1, ⟨?_, ?_⟩, by rw [z1], by rw [z1], s1, o1, ?_, w0 _ (by decide), w1⟩
  · refine ⟨g0, Nat.le_refl _, ?_, ?_, Nat.le_refl _, ?_, ?_, g2, ⟨?_, ?_, ?_⟩, ?_, ?_, ?_, ?_, ?_, (by show 3 * 0 < 128; decide), trivial, nofun, ?_, trivial, ?_, nofun, ?_⟩
    · show (word m1.zp.prgp m1.zp.prgph).toNat = w
      rw [z1]
      exact (congrArg BitVec.toNat h.same).trans h.prog
    · show ptr m1.ram 0 = word m1.zp.prgp m1.zp.prgph
      rw [hp 0 (by decide), z1]
      exact h.same.symm
    · show (ptr m1.ram 3).toNat = _
      rw [hp 3 (by decide), h.rest 3 (by decide) (by decide)]
    · show (memTop m1.ram).toNat = _
      rw [ht, h.memtop]
    · show _ ≤ (ptr m1.ram 0).toNat
      rw [hp 0 (by decide), h.prog]
      omega
    · intro i hi
      show (ptr m1.ram i).toNat ≤ (ptr m1.ram (i + 1)).toNat
      rw [hp i (by omega), hp (i + 1) (by omega), h.rest (i + 1) (by omega) (by omega)]
      rcases Nat.eq_zero_or_pos i with rfl | h0
      · rw [h.prog]; omega
      · rw [h.rest i h0 (by omega)]
    · show (ptr m1.ram 4).toNat ≤ _
      rw [hp 4 (by decide), h.rest 4 (by decide) (by decide)]
      omega
    · show m1.zp.mins = _
      rw [z1]
      exact h.mins
    · show (word (m1.ram relocA) (m1.ram relocA1)).toNat = _
      rw [w1 _ (by decide), w1 _ (by decide)]
    · show w = w + m1.zp.opos.toNat
      rw [z1]
      rfl
    · intro a ha hb
      apply Knows.of
      show (m.ram (BitVec.ofNat 16 a)).toNat = (m1.ram (BitVec.ofNat 16 a)).toNat
      dsimp only at ha hb
      rw [w1]
      simp only [List.mem_cons, List.not_mem_nil, or_false, not_or]
      exact ⟨wne (b := 0xB8) (by omega) (by omega) (by omega), wne (b := 0xAE) (by omega) (by omega) (by omega), wne (b := 0xAF) (by omega) (by omega) (by omega),
        wne (b := 0xB5) (by omega) (by omega) (by omega), wne (b := 0xB3) (by omega) (by omega) (by omega), wne (b := 0xB6) (by omega) (by omega) (by omega),
        wne (b := 0xB7) (by omega) (by omega) (by omega)⟩
    · show (m1.ram 0xB3).toNat = 0
      rw [show m1.ram 0xB3 = 0#8 from w0 _ (by decide)]
      rfl
    · show (m1.ram lastLabel).toNat = _
      rw [w1 _ (by decide)]
    · show (ptr m1.ram 4).toNat = w + 256 + 4 * 0
      rw [hp 4 (by decide), h.rest 4 (by decide) (by decide)]
    · show w + 256 + 4 * 0 ≤ top
      omega
  · refine ⟨nofun, nofun, ?_, ?_, ?_, ?_, rfl⟩
    · show (m1.ram lblCount).toNat = 0
      rw [c0]
      rfl
    · intro i hi
      simp [table] at hi
    · show w + 256 ≤ (ptr m1.ram 2).toNat
      rw [hp 2 (by decide), h.rest 2 (by decide) (by decide)]
    · show (ptr m1.ram 2).toNat + _ = w + 256
      rw [hp 2 (by decide), h.rest 2 (by decide) (by decide)]
      rfl
  · rw [w0 _ (by decide), w0 _ (by decide)]
    rfl

/-- The next line is read if and only if there is text left: else the check at the end is done. -/
theorem C53_line : ((word m.zp.bufp m.zp.bufph).toNat < (word (m.ram endPtr) (m.ram (endPtr + 1))).toNat → ∃ m', Reach P (eofCode.parse_line msg) m (eofCode.ucase_line msg) m' ∧
      word (m'.ram lineNum) (m'.ram lineNum1) = word (m.ram lineNum) (m.ram lineNum1) + 1 ∧ m'.zp = { m.zp with cix := 0, bmax := 0 } ∧ (∀ a, a ≠ lineNum → a ≠ lineNum1 → m'.ram a = m.ram a) ∧ m'.stk = m.stk ∧ m'.out = m.out) ∧
    ((word (m.ram endPtr) (m.ram (endPtr + 1))).toNat ≤ (word m.zp.bufp m.zp.bufph).toNat → ∃ m', Reach P (eofCode.parse_line msg) m (eofCode.parse_eof msg) m' ∧
      m'.zp = { m.zp with cix := 0, bmax := 0 } ∧ m'.ram = m.ram ∧ m'.stk = m.stk ∧ m'.out = m.out) := by
  constructor
  · intro h
    obtain ⟨m1, r1, z1, l1, w1, -, s1, -, -, o1, -⟩ := f_line msg m h
    exact ⟨m1, r1, l1, z1, w1, s1, o1⟩
  · intro h
    obtain ⟨m1, r1, z1, w1, s1, -, -, o1, -⟩ := f_last msg m h
    exact ⟨m1, r1, z1, w1, s1, o1⟩

/-- A program without text compiles to the token `END` alone. -/
theorem C53_empty {w top : Nat} (h : Free w top m) (he : (word (m.ram endPtr) (m.ram (endPtr + 1))).toNat ≤ (word m.zp.bufp m.zp.bufph).toNat) {k : Code} {st : List Slot} (hs : m.stk = .ret k :: st) :
    ∃ m', Reach P (eofCode.parser_start msg) m k m' ∧ m'.c = false ∧ m'.stk = st ∧ m'.ram (BitVec.ofNat 16 w) = 0#8 ∧ m'.zp.opos = 1 ∧ m'.out = m.out := by
  obtain ⟨m1, r1, ⟨H, -⟩, b1, b2, s1, o1, -, -, w1⟩ := C53_start msg h
  obtain ⟨m2, r2, z2, w2, s2, o2⟩ := (C53_line msg (m := m1)).2 (by rw [w1 _ (by decide), w1 _ (by decide), b1, b2]; exact he)
  have H2 := jrep_of (v' := m2.jv) H w2 (by show m2.zp.prgp = m1.zp.prgp; rw [z2]) (by show m2.zp.prgph = m1.zp.prgph; rw [z2]) (by show m2.zp.mins = m1.zp.mins; rw [z2]) (by show m2.zp.opos = m1.zp.opos; rw [z2])
  obtain ⟨m3, r3, c3, s3, z3, e3, -, o3, -⟩ := C53_accepts msg H2 (s2.trans (s1.trans hs)) rfl nofun (Nat.lt_add_of_pos_right (by decide))
  have hop : m2.zp.opos = 0#8 := by
    have : w = w + m2.zp.opos.toNat := H2.cp
    exact BitVec.eq_of_toNat_eq (by show m2.zp.opos.toNat = 0; omega)
  exact ⟨m3, r1.trans (r2.trans r3), c3, s3, e3, by rw [z3, hop]; rfl, o3.trans (o2.trans o1)⟩

end

/-! ## Concrete cases -/

/-- The machine of C45 with an open `DO`, the messages at `$7000`, and the state `t` in the entry of the label (0 is not defined, 128 is a definition). -/
def exRam53 (t : B) (a : W) : B := if a = 0x2214 then t else if 0x7001 ≤ a.toNat ∧ a.toNat ≤ 0x7000 + errImage.length then errImage.getD (a.toNat - 0x7001) 0 else exRam45 a

def exM53 (t : B) : M := { exM45 with ram := exRam53 t }

def exN53 (t : B) : NS := { exN with mem := fun a => (exRam53 t (BitVec.ofNat 16 a)).toNat, lab := [⟨0, t.toNat, 0x2010⟩] }

theorem exJ53 (t : B) : JRep exP (exN53 t) (exM53 t).jv := by
  have e : ∀ a : W, a ≠ 0x2214 → a.toNat < 0x7001 → exRam53 t a = exRam45 a := fun a h1 h2 => by rw [exRam53, if_neg h1, if_neg (by omega)]
  have H := exHolds.rep
  have hp : ∀ i, i ≤ 4 → ptr (exRam53 t) i = ptr exRam45 i := by
    intro i hi
    rcases (by omega : i = 0 ∨ i = 1 ∨ i = 2 ∨ i = 3 ∨ i = 4) with rfl | rfl | rfl | rfl | rfl <;> rw [ptr, ptr, e _ (by decide) (by decide), e _ (by decide) (by decide)]
  refine ⟨H.low, H.base_le, H.prog, ?_, H.below, ?_, ?_, H.topOk, ⟨?_, ?_, ?_⟩, H.mins, ?_, H.cp, fun a _ _ _ => rfl, ?_, H.room, ?_, H.ents, ?_, ?_, ?_, ?_, H.fits⟩
  · exact (hp 0 (by decide)).trans H.pptr
  · exact (congrArg BitVec.toNat (hp 3 (by decide))).trans H.lbuf
  · show (memTop (exRam53 t)).toNat = _
    rw [memTop, e _ (by decide) (by decide), e _ (by decide) (by decide)]
    exact H.top
  · exact H.ord.lo.trans_eq (congrArg BitVec.toNat (hp 0 (by decide))).symm
  · intro i hi
    have := H.ord.mono i hi
    show (ptr (exRam53 t) i).toNat ≤ (ptr (exRam53 t) (i + 1)).toNat
    rw [hp i (by omega), hp (i + 1) (by omega)]
    exact this
  · show (ptr (exRam53 t) 4).toNat ≤ _
    rw [hp 4 (by decide)]
    exact H.ord.hi
  · show (word (exRam53 t relocA) (exRam53 t relocA1)).toNat = _
    rw [e _ (by decide) (by decide), e _ (by decide) (by decide)]
    exact H.rel
  · show (exRam53 t 0xB3).toNat = _
    rw [e _ (by decide) (by decide)]
    exact H.sp
  · exact H.loops.congr fun i hi => e _ (wne (b := 0x2214) (by simp [exN] at hi; omega) (by omega) (by simp [exN] at hi; omega)) (by simp [exN] at hi; rw [w16 (by omega)]; omega)
  · show (exRam53 t lastLabel).toNat = _
    rw [e _ (by decide) (by decide)]
    exact H.last
  · refine ⟨?_, ?_, ?_, ?_, trivial⟩
    · exact e 0x2213 (by decide) (by decide)
    · show exRam53 t 0x2214 = BitVec.ofNat 8 t.toNat
      rw [exRam53, if_pos rfl]
      simp only [BitVec.ofNat_toNat, BitVec.setWidth_eq]
    · exact (e 0x2215 (by decide) (by decide)).trans H.lab.2.2.1
    · exact (e 0x2216 (by decide) (by decide)).trans H.lab.2.2.2.1
  · exact (congrArg BitVec.toNat (hp 4 (by decide))).trans H.lptr
  · intro x hx
    obtain rfl := List.mem_singleton.1 hx
    exact ⟨(by decide : 0 < 256), t.isLt, (by decide : 0x2000 ≤ 0x2010), (by decide : 0x2010 < 0x2100 + 256), fun _ => (by decide : 0x2010 + 2 < 0x2100 + 256)⟩

theorem exMsgs (t : B) : MsgsAt 0x7000 (exM53 t).ram := by
  intro i hi
  have hl : errImage.length = 57 := rfl
  have e1 : ((0x7000 : W) + BitVec.ofNat 16 (i + 1)).toNat = 0x7001 + i := by simp; omega
  have ne : ∀ n : W, n.toNat < 0x7001 → (0x7000 : W) + BitVec.ofNat 16 (i + 1) ≠ n := fun n hn h => by rw [h] at e1; omega
  refine ⟨?_, ne _ (by decide), ne _ (by decide)⟩
  show exRam53 t _ = _
  rw [exRam53, if_neg (ne _ (by decide)), if_pos (by rw [e1]; omega), e1, Nat.add_sub_cancel_left]
  simp [List.getD, hi]

/-- The label `AB` is used and not defined. -/
example : EndsWith 0x7000 (exM53 0) "undef label" := C53_label _ (exJ53 0) (exMsgs 0) ⟨_, List.mem_singleton.2 rfl, rfl⟩

/-- With the label defined, the `DO` is still open. -/
example : EndsWith 0x7000 (exM53 128) "no end loop/proc/if" := C53_loop _ (exJ53 128) (exMsgs 128) (fun e he => by obtain rfl := List.mem_singleton.1 he; decide) (by simp [exN53, exN])

/-- The compiler at the start, with 16 bytes of text at `$3000`, of which none is left. -/
def exStart : M :=
  { exM45 with zp := { exM45.zp with bufp := 0x10, bufph := 0x30, prgph := 0x40, prgp := 0 }
               ram := fun a => ([(0xA0, 0x10), (0xA1, 0x30), (0xA2, 0x00), (0xA3, 0x40), (0xA4, 0x00), (0xA5, 0x41), (0xA6, 0x00), (0xA7, 0x41), (0xA8, 0x00), (0xA9, 0x41), (0xAA, 0x00), (0xAB, 0x41),
                 (0xB3, 7), (0x2E5, 0x00), (0x2E6, 0x9C)] : List (W × B)).lookup a |>.getD 0 }

example : ∃ m', Reach (eofCode 0x7000) (eofCode.parser_start 0x7000) exStart [] m' ∧ m'.c = false ∧ m'.ram 0x4000 = 0 ∧ m'.zp.opos = 1 := by
  have h : Free 0x4000 0x9C00 exStart := by
    refine ⟨by decide, by decide, rfl, by decide, rfl, rfl, ?_, rfl⟩
    intro j h1 h2
    rcases (by omega : j = 1 ∨ j = 2 ∨ j = 3 ∨ j = 4) with rfl | rfl | rfl | rfl <;> rfl
  obtain ⟨m', r, c, -, e, o, -⟩ := C53_empty 0x7000 h (by decide) rfl
  exact ⟨m', r, c, e, o⟩

end FB.Eng
