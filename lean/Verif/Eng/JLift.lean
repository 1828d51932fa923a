import Verif.Eng.JCode
import Verif.Rt.Sandbox
import Verif.Rt.Alloc
/-!
# The routines on memory areas, called from the routines on jumps
-/
namespace FB.Rt
open Ins Opd

/-- The labels of a code. -/
def labels : Code → List String
  | [] => []
  | .lb l :: r => l :: labels r
  | _ :: r => labels r

theorem find_mem {l : String} : ∀ {P k : Code}, find l P = some k → l ∈ labels P := by
  intro P
  induction P with
  | nil => intro k h; cases h
  | cons a P ih =>
    intro k h
    cases a with
    | lb l' =>
      rw [find_lb] at h
      split at h
      · next e => rw [e]; exact List.mem_cons_self ..
      · exact List.mem_cons_of_mem _ (ih h)
    | ins i => rw [find_ins] at h; exact ih h

theorem find_app {l : String} {P : Code} : ∀ {A : Code}, l ∉ labels A → find l (A ++ P) = find l P := by
  intro A
  induction A with
  | nil => intro _; rfl
  | cons a A ih =>
    intro h
    cases a with
    | lb l' =>
      rw [labels, List.mem_cons, not_or] at h
      rw [List.cons_append, find_lb, if_neg (fun e => h.1 e.symm), ih h.2]
    | ins i => rw [List.cons_append, find_ins]; exact ih h

/-- The state of the compiler in the routines on jumps. Temporary cells in `z` are cleared, and `opos` is apart. -/
structure JV where
  op : B
  ram : W → B
  stk : List Slot
  z : Zp
  sl : B → B
  sh : B → B
  out : List (B × B)
  dev : List (B × B) → Regs

def M.jv (m : M) : JV :=
  { op := m.zp.opos, ram := m.ram, stk := m.stk, sl := m.sl, sh := m.sh, out := m.out, dev := m.dev,
    z := { m.zp with tmp1 := 0, tmp1h := 0, tmp2 := 0, tmp2h := 0, tmp3 := 0, msrc := 0, msrch := 0, mdst := 0, mdsth := 0, opos := 0 } }

section
variable (err lerr : B)
local notation "Q" => jmpCode err lerr memCode

set_option maxRecDepth 20000 in
theorem mem_in : ∀ l k, find l memCode = some k → find l Q = some k := by
  have hd : ((labels (jmpCode 0 0 [])).all fun l => !(labels memCode).contains l) = true := by decide +kernel
  intro l k h
  have hl := find_mem h
  have e : Q = jmpCode err lerr [] ++ memCode := rfl
  rw [e, find_app, h]
  intro hx
  have hx' : l ∈ labels (jmpCode 0 0 []) := hx
  have := List.all_eq_true.1 hd l hx'
  simp [List.contains_iff_mem, hl] at this

/-- Runs with less code. -/
theorem run_more {P R : Code} (h : ∀ l k, find l P = some k → find l R = some k) : ∀ n k m o, o ≠ .stuck → run P n k m = o → run R n k m = o := by
  have br : ∀ b l r m, branch P b l r m ≠ .stuck → branch R b l r m = branch P b l r m := by
    intro b l r m hn
    unfold branch at hn ⊢
    cases e : find l P with
    | none => rw [e] at hn; exact absurd rfl hn
    | some k => rw [h _ _ e]
  have jm : ∀ l m, jump P l m ≠ .stuck → jump R l m = jump P l m := by
    intro l m hn
    unfold jump at hn ⊢
    cases e : find l P with
    | none => rw [e] at hn; exact absurd rfl hn
    | some k => rw [h _ _ e]
  have st : ∀ k m, step P k m ≠ .stuck → step R k m = step P k m := by
    intro k m hn
    rcases k with _ | ⟨⟨l⟩ | ⟨i⟩, r⟩
    · rfl
    · rfl
    · cases i
      all_goals first
        | rfl
        | exact br _ _ _ _ hn
        | exact jm _ _ hn
  intro n
  induction n with
  | zero => intro k m o _ e; exact e
  | succ n ih =>
    intro k m o ho e
    rw [run] at e ⊢
    have hn : step P k m ≠ .stuck := by intro e'; rw [e'] at e; exact ho e.symm
    rw [st k m hn]
    cases e' : step P k m with
    | go k1 m1 => rw [e'] at e; exact ih _ _ _ ho e
    | halt => rw [e'] at e; exact e
    | err => rw [e'] at e; exact e
    | stuck => exact absurd e' hn

theorem Reach.more {P R k k' : Code} {m m' : M} (h : ∀ l k, find l P = some k → find l R = some k) (hr : Reach P k m k' m') : Reach R k m k' m' := by
  obtain ⟨n, hn⟩ := hr
  exact ⟨n, run_more h n k m _ (by simp) hn⟩

theorem Fails.more {P R k : Code} {m : M} (h : ∀ l k, find l P = some k → find l R = some k) (hr : Fails P k m) : Fails R k m := by
  obtain ⟨n, hn⟩ := hr
  exact ⟨n, run_more h n k m _ (by simp) hn⟩

/-- Cells that no routine of `memCode` writes. -/
def memSpared : List Cell := [.tmp2, .tmp2h, .tmp3h, .dsign, .saddr, .saddrh, .op1, .op2, .op3, .tmp4, .ioerr, .cptr, .cptrh, .joff, .vpage, .chn, .bmax, .pptr, .pptrh, .opos, .prgp, .prgph]

/-- The instruction writes none of them, and no character, and does not look at the stack pointer. -/
def memQ (i : Ins) : Bool := (match i with | .tsx => false | _ => true) && i.quiet && memSpared.all fun c => i.spares c

/-- What `memCode` does not change. -/
def memF (m : M) : List B × List (B × B) × (List (B × B) → Regs) := (memSpared.map m.zp.get, m.out, m.dev)

theorem memF_keep (i : Ins) (m m' : M) (hq : memQ i = true) (he : exec i m = some m') : memF m' = memF m := by
  have put : ∀ (m : M) o v, (m.put o v).out = m.out ∧ (m.put o v).dev = m.dev := by intro m o v; cases o <;> exact ⟨rfl, rfl⟩
  simp only [memQ, Bool.and_eq_true] at hq
  obtain ⟨⟨h1, h2⟩, h3⟩ := hq
  have hc : ∀ c ∈ memSpared, m'.zp.get c = m.zp.get c := by
    intro c hc
    have hq := List.all_eq_true.1 h3 c hc
    clear h1 h2 h3 put
    cases i
    all_goals first
      | (simp only [exec, reduceCtorEq] at he; done)
      | (simp only [exec, Option.some.injEq] at he; subst he
         first
           | rfl
           | (simp only [Ins.spares] at hq; exact put_spares m _ hq))
      | (simp only [exec] at he
         split at he
         · cases he; rfl
         · cases he)
      | (simp only [exec] at he
         split at he
         · cases he; rfl
         · split at he
           · cases he; rfl
           · cases he)
      | (simp only [exec, Option.some.injEq] at he; subst he
         simp only [Ins.spares, Bool.not_eq_true', decide_eq_false_iff_not] at hq
         exact get_set_ne m.zp _ (c' := .ioerr) (Ne.symm hq))
  have ho : m'.out = m.out ∧ m'.dev = m.dev := by
    clear hc h3
    cases i
    all_goals first
      | (simp only [exec, reduceCtorEq] at he; done)
      | (cases h2; done)
      | (simp only [exec, Option.some.injEq] at he; subst he
         simp only [M.nz, M.adc, M.cmp, put, and_self]; done)
      | (simp only [exec] at he
         split at he
         · cases he; exact ⟨rfl, rfl⟩
         · cases he)
      | (simp only [exec] at he
         split at he
         · cases he; exact ⟨rfl, rfl⟩
         · split at he
           · cases he; exact ⟨rfl, rfl⟩
           · cases he)
  simp only [memF, ho.1, ho.2, Prod.mk.injEq, and_true]
  exact List.map_congr_left hc

theorem memQ_all : allIns memQ memCode = true := by decide +kernel

/-- A place that is not in the code. -/
def away : Code := [.lb "\n"]

theorem away_not : ¬ Suf memCode away := by
  rintro ⟨a, h⟩
  have h1 := congrArg List.getLast? h
  rw [away, List.getLast?_concat] at h1
  have h2 : (memCode.getLast?.bind fun l => match l with | .lb l => some l | _ => none) = none := by decide +kernel
  rw [h1] at h2
  cases h2

/-- A routine of `memCode`, called from the bigger code: what it does with a stack where there is only one return address. -/
theorem mem_call {e k : Code} {st : List Slot} {m m1 : M} (he : Suf memCode e) (hk : m.stk = .ret k :: st)
    (h : Reach memCode e { m with stk := [.ret away] } away m1) : Reach Q e m k { m1 with stk := st } ∧ memF m1 = memF m := by
  obtain ⟨n, hn⟩ := h
  obtain ⟨a, b⟩ := run_lift memF memQ memF_keep (fun _ _ => rfl) rfl memQ_all (mem_in err lerr) away_not (fun m => ⟨m, rfl⟩) (by simp [away]) k st n e
    { m with stk := [.ret away] } m1 [] he (fun _ h => by cases h) rfl hn
  refine ⟨?_, a⟩
  have e : ({ { m with stk := [.ret away] } with stk := [] ++ .ret k :: st } : M) = m := by
    obtain ⟨_, _, _, _, _, _, _, _, _, _, _, _⟩ := m
    simp_all
  rw [e] at b
  exact b

theorem alloc_suf : Suf memCode memCode.alloc_laddr := find_suf memCode.alloc_laddr.find

/-- `alloc_laddr` in the bigger code: the last area has `A` more bytes. -/
theorem alloc_laddr_in (m : M) {k : Code} {st : List Slot} (hk : m.stk = .ret k :: st) (hm : m.zp.mins = 0x88) (ho : Ordered m.ram)
    (hf : (ptr m.ram 4).toNat + m.a.toNat < (memTop m.ram).toNat) :
    ∃ m', Reach Q (memCode.alloc_laddr) m k m' ∧ m'.jv = { m.jv with stk := st, ram := m'.ram } ∧ m'.zp.tmp2 = m.zp.tmp2 ∧ m'.zp.tmp2h = m.zp.tmp2h ∧ Grown m.ram m'.ram 4 m.a.toNat := by
  obtain ⟨z, n, r0⟩ := alloc_laddr_start { m with stk := [.ret away] }
  obtain ⟨m1, r1, s1, l1, h1, ⟨z1, t1⟩, g1⟩ := alloc_area_correct { m with stk := [.ret away], x := 8, z := z, n := n } 4 away [] (by omega) rfl rfl hm ho hf
  obtain ⟨a, b⟩ := mem_call err lerr alloc_suf hk (r0.trans r1)
  refine ⟨_, a, ?_, ?_, ?_, g1⟩
  · simp only [memF, memSpared, List.map_cons, List.map_nil, Zp.get, Prod.mk.injEq, List.cons.injEq] at b
    simp only [Zp.texts, List.cons.injEq] at t1
    obtain ⟨q1, q2, q3, q4, q5, q6⟩ := z1
    simp only at q1 q2 q3 q4 q5 q6
    simp only [M.jv, l1, h1, JV.mk.injEq]
    simp [b, t1, q1, q2, q3, q4, q5, q6]
  · simp only [memF, memSpared, List.map_cons, List.map_nil, Zp.get, Prod.mk.injEq, List.cons.injEq] at b
    exact b.1.1
  · simp only [memF, memSpared, List.map_cons, List.map_nil, Zp.get, Prod.mk.injEq, List.cons.injEq] at b
    exact b.1.2.1

/-- Without memory, the compiler ends. -/
theorem alloc_laddr_full (m : M) (h4 : (ptr m.ram 4).toNat ≤ 65280) (hf : (memTop m.ram).toNat ≤ (ptr m.ram 4).toNat + m.a.toNat) : Fails Q memCode.alloc_laddr m := by
  obtain ⟨z, n, r0⟩ := alloc_laddr_start m
  exact Fails.more (mem_in err lerr) (r0.fails (aa_fails _ h4 hf))

end
end FB.Rt
