import Verif.Rt.Check
import Verif.Rt.StrOps
import Verif.Props.C03
/-!
# C43: the 6502 runtime implements the virtual machine

* `Placed`, `Booted` (`Verif.Rt.Image`, `Verif.Rt.Check`): how the assembler, the linker and `interpreter_run` place the program.
* `MSteps rt page m m'`: the interpreter of the machine runs instructions: its loop, written in 6502 code, fetches a token, and
  the 6502 code `rt` that is at the address in the table of jumps runs until it jumps back.
* `Std`: the instructions that the virtual machine leaves open are those of `Verif.Rt.ExtSpec` (loops, blocks of memory, strings).
* `SafeRun`: the conditions on the program (see `Rt.Safe`).
-/
namespace FB.Rt
open Peep

/-- **C43**, programs that end.  Whatever the virtual machine of `Verif.VM` does with a program, the 6502 code of the runtime does: it
writes the same characters to the same channels, ends when the program ends, with the same memory, and there is no other way that
it can end.  Missing: the tokens without a modelled routine (`GET`, `GETKEY`, and those that are neither known to the optimizer nor in
`stdExt`), input and hardware registers, programs that overwrite themselves or the cells of the runtime, strings that overlap, and
programs that use the result of `CHR$` after calling it again (false, see `C43_chr_compares_equal`). -/
theorem C43_runtime_implements_vm_partial {env : Env} {img : Image} {P : List Codew} {rt : W → Option (Code × Code)} {m : M} {n : Nat}
    {d : D} (hx : Std env) (hp : Placed env img P) (hrt : Routines env img P rt) (hend : rt (img.exe .END) = none) (hb : Booted env img P m)
    (hsafe : SafeRun env img P (initCfg P m.ram)) (h : runN env P n (initCfg P m.ram) = .done d) :
    ∃ m', MSteps rt img.page m m' ∧ MEnds img m' ∧ m'.out.map evOf = d.out ∧ (∀ a, ¬ Reserved env img a → m'.ram a = d.mem a) ∧
      ∀ m'', MSteps rt img.page m m'' → MEnds img m'' → m'' = m' := by
  obtain ⟨m', h1, h2, h3⟩ := sim_done hx hp hrt hb.rep hsafe h
  exact ⟨m', h1, h2, h3.out.symm, h3.mem, fun m'' g1 g2 => MSteps.unique hend g1 g2 h1 h2⟩

/-- **C43**, programs that run: after any number of steps of the virtual machine, the machine gets to a state with the same characters
written, the same memory, and the place in the code and the stacks that correspond. -/
theorem C43_runtime_follows_vm_partial {env : Env} {img : Image} {P : List Codew} {rt : W → Option (Code × Code)} {m : M} {n : Nat}
    {c : Cfg} (hx : Std env) (hp : Placed env img P) (hrt : Routines env img P rt) (hb : Booted env img P m)
    (hsafe : SafeRun env img P (initCfg P m.ram)) (h : runN env P n (initCfg P m.ram) = .run c) :
    ∃ m', MSteps rt img.page m m' ∧ m'.out.map evOf = c.d.out ∧ (∀ a, ¬ Reserved env img a → m'.ram a = c.d.mem a) ∧
      word m'.zp.cptr m'.zp.cptrh = addr env img P c.code ∧ m'.zp.sptr.toNat + c.d.stk.length = 40 ∧
      m'.stk.length = 2 * c.rets.length := by
  obtain ⟨m', h1, h2⟩ := sim_run hx hp hrt hb.rep hsafe n c h
  refine ⟨m', h1, h2.d.out.symm, h2.d.mem, h2.cp, h2.d.stk.depth, ?_⟩
  have e : m'.stk = retSlots env img P c.rets := h2.stk
  rw [e]
  generalize c.rets = l
  induction l with
  | nil => rfl
  | cons k l ih => simp only [retSlots, List.flatMap_cons, List.length_append, List.length_cons, List.length_nil] at ih ⊢; omega

/-- **C43** and C03: the machine that runs the code of the optimizer writes what the program that was given to the optimizer writes. -/
theorem C43_optimized_program_partial {env : Env} {img : Image} {P Q : List Codew} {rt : W → Option (Code × Code)} {m : M} {fuel : Nat}
    {mem : W → B} {o : List Event} (he : EnvOK env) (hx : Std env) (hg : Good P) (hopt : Peep.optimize Fix.actual fuel P = some Q)
    (hfix : Peep.optimize Fix.fixed fuel P = some Q)
    (hp : Placed env img Q) (hrt : Routines env img Q rt) (hend : rt (img.exe .END) = none) (hb : Booted env img Q m)
    (hvm : FB.Safe env P (initCfg P m.ram)) (hsafe : SafeRun env img Q (initCfg Q m.ram)) (h : Ends env P (initCfg P m.ram) mem o) :
    ∃ m', MSteps rt img.page m m' ∧ MEnds img m' ∧ m'.out.map evOf = o ∧ (∀ a, ¬ Reserved env img a → m'.ram a = mem a) := by
  have hr := C03_optimizer_preserves_behaviour_partial hg hopt hfix env he m.ram hvm
  obtain ⟨n, d, h1, rfl, rfl⟩ := (hr.ends mem o).1 h
  obtain ⟨m', a, b, c, e, -⟩ := C43_runtime_implements_vm_partial hx hp hrt hend hb hsafe h1
  exact ⟨m', a, b, c, e⟩

/-! ## A concrete case -/

/-- Token numbers for the example (`deftok.inc:31-43` numbers them as they are linked). -/
def exNum : Tok → B
  | .END => 0 | .VAR_SADDR => 2 | .BYTE => 4 | .DPOKE => 6 | .DECVAR => 8 | .VAR_LOAD => 10 | .PUT => 12 | .COMP_0 => 14 | .CNJUMP => 16
  | .CSTRING => 18 | .PRINT_STR => 20 | .CHR => 22 | .PUSH => 24 | .EQ => 26
  | .other "CMP_STR" => 28 | .other "FOR" => 30 | .other "FOR_NEXT" => 32 | .other "FOR_EXIT" => 34 | .other "COPY_STR" => 36
  | .other "CAT_STR" => 38 | .STR_IDX => 40 | .ONE => 42 | .PUSH_1 => 44 | .CJUMP => 46 | .PUSH_BYTE => 48
  | _ => 50

/-- The code at `$2000`, the table at `$3000`, routines from `$3100`, the variables at `$4000`. -/
def exImg : Image := { base := 0x2000, num := exNum, page := 0x30, exe := fun t => 0x3100 + 16 * (exNum t).setWidth 16, chr := 0x3500 }

/-- The addresses of symbols. -/
def exBase : Env :=
  { env0 with byteSym := fun s => if s = "array_ptr" then 0xD2 else 0xD0,
              wordSym := fun l => if l = "lbl1" then 0x2005 else if l = "for1" then 0x200C else if l = "for2" then 0x2013 else 0 }

/-- With the instructions. -/
def exEnv : Env := { exBase with ext := stdExt exBase, strIdx := stdIdx }

theorem exEnv_std : Std exEnv := ⟨fun _ _ => rfl, fun _ _ => rfl, rfl⟩

/-- Memory with the program; free memory is from `$5000` to `$9C00`. -/
def exRam (P : List Codew) : W → B := fun a =>
  if a = 0x3500 then 1 else if a = 0xD3 then 0x50 else if a = 0x2E6 then 0x9C else
  match (bytesAll exEnv exImg P)[(a - 0x2000).toNat]? with
  | some b => b
  | none => if 0x3000 ≤ a.toNat ∧ a.toNat < 0x3100 then
      let e : W := 0x3100 + 16 * BitVec.ofNat 16 ((a.toNat - 0x3000) / 2 * 2)
      if a.toNat % 2 = 0 then lo e else hi e
    else 0

/-- The routines at their addresses. -/
def exRt (a : W) : Option (Code × Code) :=
  ([Tok.VAR_SADDR, .BYTE, .DPOKE, .DECVAR, .VAR_LOAD, .PUT, .COMP_0, .CNJUMP, .CSTRING, .PRINT_STR, .CHR, .PUSH, .EQ, .ONE, .PUSH_1, .CJUMP, .PUSH_BYTE, .STR_IDX,
      .other "FOR", .other "FOR_NEXT", .other "FOR_EXIT", .other "COPY_STR", .other "CAT_STR", .other "CMP_STR"].find? fun t => exImg.exe t = a).bind
    (routine exEnv exImg)

/-- Any contents of the cells. -/
def zp0 : Zp := ⟨1, 2, 3, 4, 5, 6, 7, 40, 9, 10, 11, 12, 13, 14, 15, 16, 17, 18, 19, 20, 21, 22, 23, 24, 25, 0, 0, 0, 0, 0, 0, 0, 0, 0, 0, 0, 0, 0, 0, 0, 0, 0, 0, 0⟩

/-- The machine when the program starts. -/
def exM (P : List Codew) : M :=
  { a := 0x12, x := 0x34, y := 0, c := false, z := false, n := false, v := false, stk := [],
    zp := { zp0 with cptr := 0x00, cptrh := 0x20, sptr := 40, vpage := 0x40, chn := 0, arr := 0, arrh := 0x50, mins := 0x88 },
    sl := fun _ => 0xEE, sh := fun _ => 0xEE, ram := exRam P }

theorem exBooted (P : List Codew) (h : okLoaded exEnv exImg P (exRam P) = true) (h2 : exRam P 0xD0 = 0)
    (h3 : exRam P 0xD2 = 0) (h4 : exRam P 0xD3 = 0x50) : Booted exEnv exImg P (exM P) :=
  ⟨show word 0x00 0x20 = 0x2000 by decide, rfl, rfl, rfl, (congrArg (exRam P) (show pcol exEnv = 0xD0 by decide)).trans h2,
    by show exRam P 0x3500 = 1; simp [exRam], show (0x4000 : W) = word 0 0x40 by decide, rfl, okLoaded_loaded h, (congrArg₂ mkW h3 h4 : mkW (exRam P 0xD2) (exRam P 0xD3) = mkW 0 0x50) ▸ show word 0 0x50 = mkW 0 0x50 by decide, rfl⟩

theorem exLoop_routines : Routines exEnv exImg exLoopOpt exRt := by
  intro t ht r hr
  simp only [exLoopOpt, List.mem_cons, Codew.tok.injEq, List.not_mem_nil, or_false, reduceCtorEq, false_or] at ht
  rcases ht with rfl | rfl | rfl | rfl | rfl | rfl | rfl | rfl | rfl | rfl <;> first | exact hr | cases hr

theorem exLoop_safe : okRun exEnv exImg exLoopOpt 90 (initCfg exLoopOpt (exM exLoopOpt).ram) = true := by decide +kernel

/-- The hypotheses are met by the code of `A = 3 * 4 : REPEAT : A = A - 1 : PUT A : UNTIL A = 0`, and so the machine writes the bytes
11 to 0. -/
example : ∃ m', MSteps exRt 0x30 (exM exLoopOpt) m' ∧ MEnds exImg m' ∧
    m'.out.map evOf = [11, 10, 9, 8, 7, 6, 5, 4, 3, 2, 1, 0].map (Event.put 0) := by
  obtain ⟨d, hd⟩ := Res.isDone_iff (r := runN exEnv exLoopOpt 90 (initCfg exLoopOpt (exM exLoopOpt).ram)) (by decide +kernel)
  obtain ⟨m', h1, h2, h3, -⟩ := C43_runtime_implements_vm_partial (rt := exRt) exEnv_std (okPlaced_placed (by decide +kernel)) exLoop_routines (by decide +kernel)
    (exBooted exLoopOpt (by decide +kernel) (by decide +kernel) (by decide +kernel) (by decide +kernel)) (okRun_safe exLoop_safe) hd
  refine ⟨m', h1, h2, h3.trans ?_⟩
  have ho : (runN exEnv exLoopOpt 90 (initCfg exLoopOpt (exM exLoopOpt).ram)).out? =
      some ([11, 10, 9, 8, 7, 6, 5, 4, 3, 2, 1, 0].map (Event.put 0)) := by decide +kernel
  rw [hd] at ho
  exact Option.some.inj ho

/-- Code of `PRINT "AB"; CHR$(67);` -/
def exStr : List Codew :=
  [.tok .CSTRING, .str [65, 66], .tok .PRINT_STR, .tok .BYTE, .byte 67, .tok .CHR, .tok .PRINT_STR, .tok .END]

theorem exStr_routines : Routines exEnv exImg exStr exRt := by
  intro t ht r hr
  simp only [exStr, List.mem_cons, Codew.tok.injEq, List.not_mem_nil, or_false, reduceCtorEq, false_or] at ht
  rcases ht with rfl | rfl | rfl | rfl | rfl | rfl <;> first | exact hr | cases hr

/-- And by this program, that writes two strings, one of them made by `CHR$`. -/
example : ∃ m', MSteps exRt 0x30 (exM exStr) m' ∧ MEnds exImg m' ∧ m'.out.map evOf = [.put 0 65, .put 0 66, .put 0 67] := by
  obtain ⟨d, hd⟩ := Res.isDone_iff (r := runN exEnv exStr 20 (initCfg exStr (exM exStr).ram)) (by decide +kernel)
  obtain ⟨m', h1, h2, h3, -⟩ := C43_runtime_implements_vm_partial (rt := exRt) exEnv_std (okPlaced_placed (by decide +kernel)) exStr_routines (by decide +kernel)
    (exBooted exStr (by decide +kernel) (by decide +kernel) (by decide +kernel) (by decide +kernel)) (okRun_safe (n := 20) (by decide +kernel)) hd
  refine ⟨m', h1, h2, h3.trans ?_⟩
  have ho : (runN exEnv exStr 20 (initCfg exStr (exM exStr).ram)).out? = some [.put 0 65, .put 0 66, .put 0 67] := by decide +kernel
  rw [hd] at ho
  exact Option.some.inj ho

/-- Code of `FOR A = 1 TO 3 : PUT A : NEXT A`, see `basic.syn:514-517`. -/
def exFor : List Codew :=
  [.tok .VAR_SADDR, .varn 0 "A", .tok .PUSH, .tok .ONE, .tok .DPOKE, .tok .BYTE, .byte 3, .tok .PUSH_1, .tok (.other "FOR"),
   .tok .CNJUMP, .wordStr "for2", .label "for1", .tok .VAR_LOAD, .varn 0 "A", .tok .PUT, .tok (.other "FOR_NEXT"),
   .tok .CJUMP, .wordStr "for1", .label "for2", .tok (.other "FOR_EXIT"), .tok .END]

theorem exFor_routines : Routines exEnv exImg exFor exRt := by
  intro t ht r hr
  simp only [exFor, List.mem_cons, Codew.tok.injEq, List.not_mem_nil, or_false, reduceCtorEq, false_or] at ht
  rcases ht with rfl | rfl | rfl | rfl | rfl | rfl | rfl | rfl | rfl | rfl | rfl | rfl | rfl | rfl <;> first | exact hr | cases hr

/-- And by a loop. -/
example : ∃ m', MSteps exRt 0x30 (exM exFor) m' ∧ MEnds exImg m' ∧ m'.out.map evOf = [.put 0 1, .put 0 2, .put 0 3] := by
  obtain ⟨d, hd⟩ := Res.isDone_iff (r := runN exEnv exFor 40 (initCfg exFor (exM exFor).ram)) (by decide +kernel)
  obtain ⟨m', h1, h2, h3, -⟩ := C43_runtime_implements_vm_partial (rt := exRt) exEnv_std (okPlaced_placed (by decide +kernel)) exFor_routines (by decide +kernel)
    (exBooted exFor (by decide +kernel) (by decide +kernel) (by decide +kernel) (by decide +kernel)) (okRun_safe (n := 40) (by decide +kernel)) hd
  refine ⟨m', h1, h2, h3.trans ?_⟩
  have ho : (runN exEnv exFor 40 (initCfg exFor (exM exFor).ram)).out? = some [.put 0 1, .put 0 2, .put 0 3] := by decide +kernel
  rw [hd] at ho
  exact Option.some.inj ho

/-- Code of `A$ = "AB" : A$ =+ "CD" : PRINT A$[2,2]; : PUT A$ = "ABCD"`, see `basic.syn:248-271,539-540`. -/
def exCat : List Codew :=
  [.tok .VAR_SADDR, .varn 0 "A", .tok .CSTRING, .str [65, 66], .tok (.other "COPY_STR"),
   .tok .VAR_SADDR, .varn 0 "A", .tok .CSTRING, .str [67, 68], .tok (.other "CAT_STR"),
   .tok .VAR_LOAD, .varn 0 "A", .tok .PUSH, .tok .BYTE, .byte 2, .tok .PUSH_BYTE, .byte 2, .tok .STR_IDX, .tok .PRINT_STR,
   .tok .VAR_LOAD, .varn 0 "A", .tok .PUSH, .tok .CSTRING, .str [65, 66, 67, 68], .tok (.other "CMP_STR"), .tok .EQ, .tok .PUT, .tok .END]

theorem exCat_routines : Routines exEnv exImg exCat exRt := by
  intro t ht r hr
  simp only [exCat, List.mem_cons, Codew.tok.injEq, List.not_mem_nil, or_false, reduceCtorEq, false_or] at ht
  rcases ht with rfl | rfl | rfl | rfl | rfl | rfl | rfl | rfl | rfl | rfl | rfl | rfl | rfl | rfl | rfl | rfl | rfl | rfl | rfl <;>
    first | exact hr | cases hr

/-- And by this one, that allocates a string, makes it longer, takes a slice of it and compares it. -/
example : ∃ m', MSteps exRt 0x30 (exM exCat) m' ∧ MEnds exImg m' ∧ m'.out.map evOf = [.put 0 66, .put 0 67, .put 0 1] := by
  obtain ⟨d, hd⟩ := Res.isDone_iff (r := runN exEnv exCat 40 (initCfg exCat (exM exCat).ram)) (by decide +kernel)
  obtain ⟨m', h1, h2, h3, -⟩ := C43_runtime_implements_vm_partial (rt := exRt) exEnv_std (okPlaced_placed (by decide +kernel)) exCat_routines (by decide +kernel)
    (exBooted exCat (by decide +kernel) (by decide +kernel) (by decide +kernel) (by decide +kernel)) (okRun_safe (n := 40) (by decide +kernel)) hd
  refine ⟨m', h1, h2, h3.trans ?_⟩
  have ho : (runN exEnv exCat 40 (initCfg exCat (exM exCat).ram)).out? = some [.put 0 66, .put 0 67, .put 0 1] := by decide +kernel
  rw [hd] at ho
  exact Option.some.inj ho

/-- The hypotheses of the theorem about the optimizer are met by `exLoop`. -/
example : ∃ m', MSteps exRt 0x30 (exM exLoopOpt) m' ∧ MEnds exImg m' ∧
    m'.out.map evOf = [11, 10, 9, 8, 7, 6, 5, 4, 3, 2, 1, 0].map (Event.put 0) := by
  have hio : EnvOK exEnv := std_envOK (fun _ => rfl) fun _ _ => ⟨rfl, rfl⟩
  obtain ⟨d, hd⟩ := Res.isDone_iff (r := runN exEnv exLoop 200 (initCfg exLoop (exM exLoopOpt).ram)) (by decide +kernel)
  have ho : (runN exEnv exLoop 200 (initCfg exLoop (exM exLoopOpt).ram)).out? =
      some ([11, 10, 9, 8, 7, 6, 5, 4, 3, 2, 1, 0].map (Event.put 0)) := by decide +kernel
  rw [hd] at ho
  obtain ⟨m', h1, h2, h3, -⟩ := C43_optimized_program_partial (P := exLoop) (Q := exLoopOpt) (fuel := 6) hio exEnv_std (by decide +kernel)
    (by simp only [optimize, optimizeF_sound exLoop_opt.1]; rfl) (by simp only [optimize, optimizeF_sound exLoop_opt.2]; rfl)
    (okPlaced_placed (by decide +kernel)) exLoop_routines (by decide +kernel)
    (exBooted exLoopOpt (by decide +kernel) (by decide +kernel) (by decide +kernel) (by decide +kernel)) (safe_of_done hd) (okRun_safe exLoop_safe) ⟨200, d, hd, rfl, rfl⟩
  exact ⟨m', h1, h2, h3.trans (Option.some.inj ho)⟩

/-! ## Why the result of `CHR$` cannot be kept -/

/-- One instruction, by views. -/
theorem view_step {env : Env} {img : Image} {P k : List Codew} {rt : W → Option (Code × Code)} {m : M} {t : Tok} {Q q : Code} {R : View → Prop}
    (hl : Loaded env img P m.view.ram) (hs : (.tok t :: k) <:+ P) (hcp : m.view.cp = addr env img P (.tok t :: k))
    (hr : rt (img.exe t) = some (Q, q)) (hd : ∀ m1, m1.view = { m.view with cp := addr env img P k } → Entry m1 → ∃ v, Does Q q m1 v ∧ R v) :
    ∃ m', MStep rt img.page m m' ∧ R m'.view := by
  obtain ⟨m1, h1, h2, h3, h4⟩ := dispatch_view m
  have e0 : m.view.ram m.view.cp = img.num t := by
    have := ram_at (i := 0) (b := img.num t) hl hs rfl
    rw [hcp]
    simpa using this
  have e1 : m.view.cp + 1 = addr env img P k := by rw [hcp, addr_tail hs]; rfl
  rw [e1] at h2
  obtain ⟨v, ⟨m', g1, rfl⟩, g2⟩ := hd m1 h2 h3
  refine ⟨m', ⟨m1, Q, q, h1, ?_, g1⟩, g2⟩
  have er : m1.ram = m.view.ram := by have e := congrArg View.ram h2; exact e
  have hm : Codew.tok t ∈ P := suffix_mem hs
  rw [jumpTarget, h4, e0, er, hl.low t hm, hl.high t hm, word_lo_hi]
  exact hr

/-- `EXE_CMP_STR` when the two strings are the same. -/
theorem cmp_does_eq {m : M} (he : Entry m) (hs : ∀ k', .ret k' ∉ m.stk) (h : word (m.view.sl m.view.sp) (m.view.sh m.view.sp) = m.view.ax) :
    Does cmpStrCode cmpStrCode.EXE_CMP_STR m
      { m.view with ax := 0, sl := upd m.view.sl m.view.sp 0, sh := upd m.view.sh m.view.sp 0 } := by
  obtain ⟨m', h1, h2⟩ := cmp_correct m he
  have e0 : m.stkAt 0 = m.ax := by
    rw [stkAt0 he, show m.y = m.view.sp from he]; exact h
  have ex : ∀ l, cmpX l l = 0 := by
    intro l
    induction l with
    | nil => rfl
    | cons a l ih => simp [cmpX, ih]
  rw [e0, ex] at h2
  have ht : tidy cmpStrCode cmpStrCode.EXE_CMP_STR = true := by decide +kernel
  simp only [tidy, List.all_cons, List.all_nil, Bool.and_true, Bool.and_eq_true] at ht
  obtain ⟨⟨q1, a1, a2, a3, a4⟩, q2, b1, b2, b3, b4⟩ := ht
  refine ⟨m', h1, ?_⟩
  have c1 := h1.keeps .cptr a1 b1 hs
  have c2 := h1.keeps .cptrh a2 b2 hs
  have c3 := h1.keeps .vpage a3 b3 hs
  have c4 := h1.keeps .chn a4 b4 hs
  have c5 := h1.quiet q1 q2 hs
  have c6 : word m'.a m'.x = 0 := h2.ax
  simp only [Zp.get] at c1 c2 c3 c4
  simp only [M.view, c1, c2, c3, c4, c5, c6, h2.stk, h2.sl, h2.sh, h2.ram, h2.zp.sptr, h2.zp.saddr, h2.zp.saddrh, h2.zp.arr, h2.zp.arrh, h2.zp.mins]

/-- **C43**, why one condition is needed: `CHR$` writes its result always in the same two bytes, so that with the code that the
compilers emit for `CHR$(x) = CHR$(y)` the machine compares these two bytes with themselves: the result is 1 for all `x` and `y`. -/
theorem C43_chr_compares_equal {env : Env} {img : Image} {P k : List Codew} {rt : W → Option (Code × Code)} {m : M} {c : Cfg} {y : B}
    (hp : Placed env img P) (hrt : Routines env img P rt)
    (hcmp : rt (img.exe (.other "CMP_STR")) = some (cmpStrCode, cmpStrCode.EXE_CMP_STR)) (hr : Rep env img P c m.view)
    (hc : c.code = .tok .CHR :: .tok .PUSH :: .tok .BYTE :: .byte y :: .tok .CHR :: .tok (.other "CMP_STR") :: .tok .EQ :: k) :
    ∃ m', MSteps rt img.page m m' ∧ m'.view.ax = 1 ∧ m'.view.cp = addr env img P k := by
  obtain ⟨a6, h6⟩ : ∃ a, a = (.tok .EQ :: k : List Codew) := ⟨_, rfl⟩
  obtain ⟨a5, h5⟩ : ∃ a, a = (.tok (.other "CMP_STR") :: a6 : List Codew) := ⟨_, rfl⟩
  obtain ⟨a4, h4⟩ : ∃ a, a = (.tok .CHR :: a5 : List Codew) := ⟨_, rfl⟩
  obtain ⟨a3, h3⟩ : ∃ a, a = (.byte y :: a4 : List Codew) := ⟨_, rfl⟩
  obtain ⟨a2, h2⟩ : ∃ a, a = (.tok .BYTE :: a3 : List Codew) := ⟨_, rfl⟩
  obtain ⟨a1, h1⟩ : ∃ a, a = (.tok .PUSH :: a2 : List Codew) := ⟨_, rfl⟩
  rw [← h6, ← h5, ← h4, ← h3, ← h2, ← h1] at hc
  have s1 := hr.code
  rw [hc] at s1
  have s2 := suffix_tail s1
  rw [h1] at s2
  have s3 := suffix_tail s2
  rw [h2] at s3
  have s4 := suffix_tail s3
  rw [h3] at s4
  have s5 := suffix_tail s4
  rw [h4] at s5
  have s6 := suffix_tail s5
  rw [h5] at s6
  have s7 := suffix_tail s6
  rw [h6] at s7
  have hcp := hr.cp
  rw [hc] at hcp
  have l0 := hr.d.loaded
  have lk : ∀ f b, Loaded env img P f → Loaded env img P (upd f (img.chr + 1) b) := fun f b h => loaded_of h fun a ha =>
    if_neg fun e => hp.apart a (.inr (.inr (.inl e))) ha
  have nr : ∀ k', .ret k' ∉ m.view.stk := by intro k' h; rw [hr.stk] at h; exact retSlots_nr _ _ h
  -- CHR
  obtain ⟨m1, t1, e1⟩ := view_step (R := fun v => v = { m.view with cp := addr env img P a1, ax := img.chr, ram := upd m.view.ram (img.chr + 1) (lo m.view.ax) })
    l0 s1 hcp (hrt _ (suffix_mem s1) _ rfl) fun n1 hn _ => ⟨_, chr_does n1 img.chr, by rw [hn]⟩
  have l1 : Loaded env img P m1.view.ram := by rw [e1]; exact lk _ _ l0
  -- PUSH
  obtain ⟨m2, t2, w, e2⟩ := view_step (R := fun v => ∃ w, v = { m1.view.push w with cp := addr env img P a2 })
    l1 s2 (by rw [e1, h1]) (hrt _ (suffix_mem s2) _ rfl) fun n1 hn he => ⟨_, push_does n1 he, word n1.x n1.x, by rw [hn]; rfl⟩
  have l2 : Loaded env img P m2.view.ram := by rw [e2]; exact l1
  -- BYTE
  obtain ⟨m3, t3, e3⟩ := view_step (R := fun v => v = { m2.view with ax := word y 0, cp := addr env img P a4 })
    l2 s3 (by rw [e2, h2]) (hrt _ (suffix_mem s3) _ rfl) fun n1 hn _ => ⟨_, byte_does n1, by
      have := ram_at (i := 0) (b := y) l2 s4 rfl
      rw [BitVec.add_zero] at this
      rw [hn]
      simp only [h3, this, addr_tail s4]
      rfl⟩
  have l3 : Loaded env img P m3.view.ram := by rw [e3]; exact l2
  -- CHR
  obtain ⟨m4, t4, e4⟩ := view_step (R := fun v => v = { m3.view with cp := addr env img P a5, ax := img.chr, ram := upd m3.view.ram (img.chr + 1) (lo m3.view.ax) })
    l3 s5 (by rw [e3, h4]) (hrt _ (suffix_mem s5) _ rfl) fun n1 hn _ => ⟨_, chr_does n1 img.chr, by rw [hn]⟩
  have l4 : Loaded env img P m4.view.ram := by rw [e4]; exact lk _ _ l3
  have k4 : m4.view.stk = m.view.stk := by rw [e4, e3, e2, e1]; rfl
  have x4 : word (m4.view.sl m4.view.sp) (m4.view.sh m4.view.sp) = m4.view.ax := by
    rw [e4, e3, e2, e1]; simp [View.push, upd, word_lo_hi]
  -- CMP_STR
  obtain ⟨m5, t5, e5⟩ := view_step
    (R := fun v => v = { m4.view with cp := addr env img P a6, ax := 0, sl := upd m4.view.sl m4.view.sp 0, sh := upd m4.view.sh m4.view.sp 0 })
    l4 s6 (by rw [e4, h5]) hcmp fun n1 hn he => ⟨_, cmp_does_eq he (by
      rw [show n1.stk = n1.view.stk from rfl, hn]; show ∀ k', .ret k' ∉ m4.view.stk; rw [k4]; exact nr) (by rw [hn]; exact x4), by rw [hn]⟩
  have l5 : Loaded env img P m5.view.ram := by rw [e5]; exact l4
  -- EQ
  obtain ⟨m6, t6, e6, e7⟩ := view_step (R := fun v => v.ax = 1 ∧ v.cp = addr env img P k)
    l5 s7 (by rw [e5, h6]) (hrt _ (suffix_mem s7) _ rfl) fun n1 hn he => ⟨_, binary_does eq_correct (by decide +kernel) he (by
      rw [show n1.stk = n1.view.stk from rfl, hn, e5]; show ∀ k', .ret k' ∉ m4.view.stk; rw [k4]; exact nr), by
      rw [hn, e5]; simp [upd, b2w, word], by rw [hn]⟩
  exact ⟨m6, .step t1 (.step t2 (.step t3 (.step t4 (.step t5 (.step t6 (.refl _)))))), e6, e7⟩

/-- Code of `CHR$(x) = CHR$(66)`, with `x` in the accumulator. -/
def exCmp : List Codew :=
  [.tok .CHR, .tok .PUSH, .tok .BYTE, .byte 66, .tok .CHR, .tok (.other "CMP_STR"), .tok .EQ, .tok .END]

/-- The routines with that of `CMP_STR`. -/
def exRt2 (a : W) : Option (Code × Code) :=
  if a = exImg.exe (.other "CMP_STR") then some (cmpStrCode, cmpStrCode.EXE_CMP_STR) else exRt a

theorem exCmp_routines : Routines exEnv exImg exCmp exRt2 := by
  intro t ht r hr
  simp only [exCmp, List.mem_cons, Codew.tok.injEq, List.not_mem_nil, or_false, reduceCtorEq, false_or] at ht
  rcases ht with rfl | rfl | rfl | rfl | rfl | rfl | rfl <;> first | exact hr | cases hr

/-- The hypotheses are met when the program starts, with the character 18: it is equal to 66. -/
example : lo (exM exCmp).view.ax = 18 ∧ ∃ m', MSteps exRt2 0x30 (exM exCmp) m' ∧ m'.view.ax = 1 := by
  obtain ⟨m', h1, h2, -⟩ := C43_chr_compares_equal (rt := exRt2) (okPlaced_placed (by decide +kernel)) exCmp_routines (if_pos rfl)
    (exBooted exCmp (by decide +kernel) (by decide +kernel) (by decide +kernel) (by decide +kernel)).rep (c := initCfg exCmp (exM exCmp).ram) rfl
  exact ⟨by decide +kernel, m', h1, h2⟩

end FB.Rt
