import Verif.Out.Full
import Verif.Props.C21
import Verif.Rt.Dispatch

/-!
# C30: each token selects its own routine

The compiler writes tokens by name and imports each name once. The number of a token is the offset of its entry in a table of
addresses that the linker builds from the modules of the runtime, and the interpreter jumps through that table. So whatever the
order of the modules, the byte written for a token makes the interpreter run the routine of that token.
-/

namespace FB.Out

open FB.Parse

theorem mem_setInsert (x y : Str) (l : List Str) : y ∈ setInsert x l ↔ y = x ∨ y ∈ l := by
  induction l with
  | nil => simp [setInsert]
  | cons z l ih =>
    unfold setInsert
    split
    · next h => subst h; simp
    · split
      · simp
      · simp only [List.mem_cons, ih]
        constructor
        · rintro (h | h | h) <;> simp [h]
        · rintro (h | h | h) <;> simp [h]

theorem sorted_setInsert (x : Str) (l : List Str) (h : l.Pairwise (· < ·)) : (setInsert x l).Pairwise (· < ·) := by
  induction l with
  | nil => simp [setInsert]
  | cons z l ih =>
    rw [List.pairwise_cons] at h
    unfold setInsert
    split
    · exact List.pairwise_cons.mpr h
    · next hne =>
      split
      · next hlt =>
        refine List.pairwise_cons.mpr ⟨?_, List.pairwise_cons.mpr h⟩
        intro y hy
        rcases List.mem_cons.mp hy with rfl | hy
        · exact hlt
        · exact List.lt_trans hlt (h.1 y hy)
      · next hlt =>
        refine List.pairwise_cons.mpr ⟨?_, ih h.2⟩
        intro y hy
        rcases (mem_setInsert x y l).mp hy with rfl | hy
        · exact Std.lt_of_le_of_ne (List.not_lt.mp hlt) (Ne.symm hne)
        · exact h.1 y hy

theorem mem_collect (y : Str) (code : List CK) (l : List Str) :
    y ∈ collect l code ↔ y ∈ l ∨ ∃ t, CK.tok t ∈ code ∧ y = tokName t := by
  induction code generalizing l with
  | nil => simp [collect]
  | cons c code ih =>
    unfold collect
    split
    · next => simp_all
    · next c' t cs heq =>
      cases heq
      rw [ih, mem_setInsert]
      constructor
      · rintro ((h | h) | ⟨u, h1, h2⟩)
        · exact .inr ⟨t, by simp, h⟩
        · exact .inl h
        · exact .inr ⟨u, by simp [h1], h2⟩
      · rintro (h | ⟨u, h1, h2⟩)
        · exact .inl (.inr h)
        · simp only [List.mem_cons, CK.tok.injEq] at h1
          rcases h1 with rfl | h1
          · exact .inl (.inl h2)
          · exact .inr ⟨u, h1, h2⟩
    · next c' c cs hc heq =>
      cases heq
      rw [ih]
      refine or_congr Iff.rfl ⟨fun ⟨u, h1, h2⟩ => ⟨u, by simp [h1], h2⟩, fun ⟨u, h1, h2⟩ => ⟨u, ?_, h2⟩⟩
      rcases List.mem_cons.mp h1 with h | h
      · exact absurd h.symm (hc u)
      · exact h

theorem sorted_collect (code : List CK) (l : List Str) (h : l.Pairwise (· < ·)) : (collect l code).Pairwise (· < ·) := by
  induction code generalizing l with
  | nil => exact h
  | cons c code ih =>
    unfold collect
    split
    · next => exact h
    · next heq => cases heq; exact ih _ (sorted_setInsert _ _ h)
    · next heq => cases heq; exact ih _ h

/-- There is exactly one line `.importzp` for each token of the program, and no other. -/
theorem C30_imports (code : List CK) : (importLines code).Nodup ∧
    ∀ l, l ∈ importLines code ↔ ∃ t, CK.tok t ∈ code ∧ l = ofS "\t.importzp\t" ++ tokName t := by
  have e : ∀ t, 9 :: ofS ".importzp" ++ 9 :: t = ofS "\t.importzp\t" ++ t := by
    intro t
    rw [show ofS "\t.importzp\t" = 9 :: ofS ".importzp" ++ [9] by decide +kernel]
    simp
  have hs := sorted_collect code [] .nil
  refine ⟨?_, ?_⟩
  · unfold importLines usedTokens
    refine List.pairwise_map.mpr (hs.imp fun {a b} h e => ?_)
    simp only [List.cons_append, List.cons.injEq, true_and] at e
    have e : a = b := by simpa using List.append_cancel_left e
    subst e
    exact List.lt_irrefl _ h
  · intro l
    unfold importLines usedTokens
    simp only [List.mem_map, mem_collect]
    constructor
    · rintro ⟨a, h | ⟨t, h1, rfl⟩, rfl⟩
      · cases h
      · exact ⟨t, h1, e _⟩
    · rintro ⟨t, h, rfl⟩
      exact ⟨tokName t, .inr ⟨t, h, rfl⟩, e _⟩

/-- A program with two tokens, one of them twice. -/
example : importLines [.tok .NUM, .word 5, .tok .PUSH, .tok .NUM, .word 6, .tok .END] =
    [ofS "\t.importzp\tTOK_END", ofS "\t.importzp\tTOK_NUM", ofS "\t.importzp\tTOK_PUSH"] := by decide +kernel

end FB.Out

namespace FB.Rt

open FB.Parse (Str)

/-- The table of addresses that the linker builds, for any order of the modules: `names` are the tokens defined with the macro
`deftoken` (`/repo/src/deftok.inc:31-43`; `interpreter.asm:229-235` for `TOK_END`) in the order of the segment `JUMPTAB`, that
starts at a page (`align = $100` in `/repo/compiler/*.cfg`) and has at most 256 bytes (`.assert`, `deftok.inc:39`); `exe` gives
the address of the routine of a token. -/
structure Linked (names : List Str) (exe : Str → W) (page : B) (ram : W → B) : Prop where
  nodup : names.Nodup
  size : names.length ≤ 128
  low : ∀ i (h : i < names.length), ram (BitVec.ofNat 16 (256 * page.toNat + 2 * i)) = BitVec.ofNat 8 (exe names[i]).toNat
  high : ∀ i (h : i < names.length),
    ram (BitVec.ofNat 16 (256 * page.toNat + 2 * i + 1)) = BitVec.ofNat 8 ((exe names[i]).toNat / 256)

/-- `TOK_t = <(* - __JUMPTAB_RUN__)`, `deftok.inc:38`. -/
def tokValue (names : List Str) (t : Str) : Nat := 2 * names.idxOf t % 256

/-- Different tokens have different numbers. -/
theorem tokValue_inj {names : List Str} (hs : names.length ≤ 128) {t u : Str} (ht : t ∈ names) (hu : u ∈ names)
    (h : tokValue names t = tokValue names u) : t = u := by
  have h1 := List.idxOf_lt_length_of_mem ht
  have h2 := List.idxOf_lt_length_of_mem hu
  unfold tokValue at h
  have : names.idxOf t = names.idxOf u := by omega
  rw [← List.getElem_idxOf h1, ← List.getElem_idxOf h2]
  simp only [this]

/-- The interpreter runs the routine of the token that it reads. -/
theorem dispatch_token {names : List Str} {exe : Str → W} {page : B} {m : M} (hl : Linked names exe page m.ram) {t : Str}
    (ht : t ∈ names) (hb : m.ram (word m.zp.cptr m.zp.cptrh) = BitVec.ofNat 8 (tokValue names t)) :
    ∃ m', Reach dispatchCode dispatchCode.nxtins m dispatchCode.jump m' ∧ jumpTarget m' page = exe t ∧
      m'.a = m.a ∧ m'.x = m.x ∧ m'.y = m.zp.sptr ∧ word m'.zp.cptr m'.zp.cptrh = word m.zp.cptr m.zp.cptrh + 1 ∧
      Kept m m' m.zp.sptr := by
  obtain ⟨m', h, h1, h2, h3, -, -, h4, h5, hk⟩ := dispatch_correct m
  refine ⟨m', h, ?_, h1, h2, h3, h4, hk⟩
  have hi := List.idxOf_lt_length_of_mem ht
  have hsz := hl.size
  have hp := page.isLt
  have e0 := hl.low _ hi
  have e1 := hl.high _ hi
  rw [List.getElem_idxOf hi] at e0 e1
  unfold jumpTarget
  rw [hk.ram, h5, hb]
  have w0 : word (BitVec.ofNat 8 (tokValue names t)) page = BitVec.ofNat 16 (256 * page.toNat + 2 * names.idxOf t) := by
    unfold word tokValue
    apply BitVec.eq_of_toNat_eq
    simp
    omega
  have w1 : word (BitVec.ofNat 8 (tokValue names t) + 1) page = BitVec.ofNat 16 (256 * page.toNat + 2 * names.idxOf t + 1) := by
    unfold word tokValue
    apply BitVec.eq_of_toNat_eq
    simp [BitVec.toNat_add]
    omega
  rw [w0, w1, e0, e1]
  unfold word
  apply BitVec.eq_of_toNat_eq
  have := (exe t).isLt
  simp
  omega

end FB.Rt

namespace FB.Out

open FB.Parse FB.Rt

/-- C30. A program is assembled where the symbols of the tokens have the values given by the table. Then for each token of the
program the assembler writes one byte, and in any state of the machine where the interpreter is about to read that byte, it goes to
the routine of that token. -/
theorem C30_token {code : List CK} {σ : Str → Nat} {names : List Str} {exe : Str → W} {page : B}
    (hσ : ∀ t ∈ names, σ t = tokValue names t) (himp : ∀ t ∈ usedTokens code, t ∈ names)
    {t : Tok} (ht : CK.tok t ∈ code) (hw : Writable (.tok t)) :
    ∃ b : B, assemble σ (toAsm (.tok t)) = some [b.toNat] ∧
      ∀ m : M, Linked names exe page m.ram → m.ram (word m.zp.cptr m.zp.cptrh) = b →
        ∃ m', Reach dispatchCode dispatchCode.nxtins m dispatchCode.jump m' ∧ jumpTarget m' page = exe (tokName t) ∧
          m'.a = m.a ∧ m'.x = m.x ∧ m'.y = m.zp.sptr ∧ word m'.zp.cptr m'.zp.cptrh = word m.zp.cptr m.zp.cptrh + 1 ∧
          Kept m m' m.zp.sptr := by
  have hn : tokName t ∈ names := himp _ ((mem_collect _ _ _).mpr (.inr ⟨t, ht, rfl⟩))
  have hlt : tokValue names (tokName t) < 256 := Nat.mod_lt _ (by decide)
  refine ⟨BitVec.ofNat 8 (tokValue names (tokName t)), ?_, ?_⟩
  · rw [C21_encoding σ _ hw]
    show (if σ (tokName t) < 256 then some [σ (tokName t)] else none) = _
    rw [hσ _ hn, if_pos hlt, BitVec.toNat_ofNat, Nat.mod_eq_of_lt hlt]
  · intro m hl hb
    exact dispatch_token hl hn hb

/-- Memory with the table of the tokens `END`, `NUM` and `PUSH` at `$2000`, and the byte 4 elsewhere. -/
def demoRam (w : W) : B :=
  if w = 0x2000 then 0x34 else if w = 0x2001 then 0x21 else if w = 0x2002 then 0x00 else if w = 0x2003 then 0x22
  else if w = 0x2004 then 0x78 else if w = 0x2005 then 0x23 else 4

/-- The hypotheses are met: the tokens of the program above, with routines at `$2134`, `$2200` and `$2378`; the machine reads
`PUSH`, that is number 4. -/
example : Linked [ofS "TOK_END", ofS "TOK_NUM", ofS "TOK_PUSH"]
      (fun t => if t = ofS "TOK_END" then 0x2134 else if t = ofS "TOK_NUM" then 0x2200 else 0x2378) 0x20 demoRam ∧
    tokValue [ofS "TOK_END", ofS "TOK_NUM", ofS "TOK_PUSH"] (tokName .PUSH) = 4 ∧
    (∀ t ∈ usedTokens [.tok .NUM, .word 5, .tok .PUSH, .tok .NUM, .word 6, .tok .END],
      t ∈ [ofS "TOK_END", ofS "TOK_NUM", ofS "TOK_PUSH"]) ∧ Writable (.tok .PUSH) := by
  refine ⟨⟨by decide +kernel, by decide, ?_, ?_⟩, by decide +kernel, by decide +kernel, ⟨84, _, rfl, by decide⟩, ?_⟩
  · have : ∀ i : Fin 3, demoRam (BitVec.ofNat 16 (256 * (0x20 : B).toNat + 2 * i.1)) = BitVec.ofNat 8
        ((fun t => if t = ofS "TOK_END" then 0x2134 else if t = ofS "TOK_NUM" then 0x2200 else 0x2378 : Str → W)
          [ofS "TOK_END", ofS "TOK_NUM", ofS "TOK_PUSH"][i]).toNat := by decide +kernel
    exact fun i h => this ⟨i, h⟩
  · have : ∀ i : Fin 3, demoRam (BitVec.ofNat 16 (256 * (0x20 : B).toNat + 2 * i.1 + 1)) = BitVec.ofNat 8
        (((fun t => if t = ofS "TOK_END" then 0x2134 else if t = ofS "TOK_NUM" then 0x2200 else 0x2378 : Str → W)
          [ofS "TOK_END", ofS "TOK_NUM", ofS "TOK_PUSH"][i]).toNat / 256) := by decide +kernel
    exact fun i h => this ⟨i, h⟩
  · show ∀ c ∈ tokName .PUSH, symC c = true
    decide +kernel

end FB.Out
