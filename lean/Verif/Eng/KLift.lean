import Verif.Eng.KCode
/-!
# `read_word` and `SKBLANK`, called from the native compiler
-/
namespace FB.Rt
open Ins Opd

/-- The instruction writes none of the cells, and no character, and does not look at the stack pointer. -/
def cellsQ (cs : List Cell) (i : Ins) : Bool := (match i with | .tsx => false | _ => true) && i.quiet && cs.all fun c => i.spares c

def cellsF (cs : List Cell) (m : M) : List B × List (B × B) × (List (B × B) → Regs) := (cs.map m.zp.get, m.out, m.dev)

theorem cellsF_keep (cs : List Cell) (i : Ins) (m m' : M) (hq : cellsQ cs i = true) (he : exec i m = some m') : cellsF cs m' = cellsF cs m := by
  have put : ∀ (m : M) o v, (m.put o v).out = m.out ∧ (m.put o v).dev = m.dev := by intro m o v; cases o <;> exact ⟨rfl, rfl⟩
  simp only [cellsQ, Bool.and_eq_true] at hq
  obtain ⟨⟨h1, h2⟩, h3⟩ := hq
  have hc : ∀ c ∈ cs, m'.zp.get c = m.zp.get c := by
    intro c hc
    have hq := List.all_eq_true.1 h3 c hc
    clear h1 h2 h3 put
    cases i
    all_goals first
      | (simp only [exec, reduceCtorEq] at he; done)
      | (simp only [exec, Option.some.injEq] at he; subst he
         first
           | rfl
           | (simp only [Ins.spares] at hq; exact put_spares m _ hq))
      | (simp only [exec] at he
         split at he
         · cases he; rfl
         · cases he)
      | (simp only [exec] at he
         split at he
         · cases he; rfl
         · split at he
           · cases he; rfl
           · cases he)
      | (simp only [exec, Option.some.injEq] at he; subst he
         simp only [Ins.spares, Bool.not_eq_true', decide_eq_false_iff_not] at hq
         exact get_set_ne m.zp _ (c' := .ioerr) (Ne.symm hq))
  have ho : m'.out = m.out ∧ m'.dev = m.dev := by
    clear hc h3
    cases i
    all_goals first
      | (simp only [exec, reduceCtorEq] at he; done)
      | (cases h2; done)
      | (simp only [exec, Option.some.injEq] at he; subst he
         simp only [M.nz, M.adc, M.cmp, put, and_self]; done)
      | (simp only [exec] at he
         split at he
         · cases he; exact ⟨rfl, rfl⟩
         · cases he)
      | (simp only [exec] at he
         split at he
         · cases he; exact ⟨rfl, rfl⟩
         · split at he
           · cases he; exact ⟨rfl, rfl⟩
           · cases he)
  simp only [cellsF, ho.1, ho.2, Prod.mk.injEq, and_true]
  exact List.map_congr_left hc

/-- Cells that no routine of `val8Code` writes. -/
def valSpared : List Cell := [.tmp3, .tmp3h, .dsign, .sptr, .saddr, .saddrh, .msrc, .msrch, .mdst, .mdsth, .mins, .arr, .arrh, .op1, .op2, .op3, .tmp4, .nam, .namh, .vr, .vrh, .vlen, .scnt,
  .bufp, .bufph, .cptr, .cptrh, .joff, .vpage, .chn, .bmax, .pptr, .pptrh, .opos, .prgp, .prgph]

theorem valQ_all : allIns (cellsQ valSpared) val8Code = true := by decide +kernel

theorem away_not8 : ¬ Suf val8Code away := by
  rintro ⟨a, h⟩
  have h1 := congrArg List.getLast? h
  rw [away, List.getLast?_concat] at h1
  have h2 : (val8Code.getLast?.bind fun l => match l with | .lb l => some l | _ => none) = none := by decide +kernel
  rw [h1] at h2
  cases h2

/-- The state of the compiler in the routines that read constants. Temporary cells in `z` are cleared, and `opos` and `bpos` are apart. -/
structure KV where
  op : B
  ci : B
  ram : W → B
  stk : List Slot
  z : Zp
  sl : B → B
  sh : B → B
  out : List (B × B)
  dev : List (B × B) → Regs

def M.kv (m : M) : KV :=
  { op := m.zp.opos, ci := m.zp.cix, ram := m.ram, stk := m.stk, sl := m.sl, sh := m.sh, out := m.out, dev := m.dev,
    z := { m.zp with tmp1 := 0, tmp1h := 0, tmp2 := 0, tmp2h := 0, opos := 0, cix := 0 } }

/-- The text that is read, from `bptr`, and the code that is written, from `prog_ptr`. -/
def KV.bp (v : KV) : W := word v.z.inb v.z.inbh
def KV.prog (v : KV) : W := word v.z.prgp v.z.prgph

section
variable (err : B)
local notation "Q" => kCode err

set_option maxRecDepth 20000 in
theorem val_in : ∀ l k, find l val8Code = some k → find l Q = some k := by
  have hd : ((labels ((kCode 0).take ((kCode 0).length - val8Code.length))).all fun l => !(labels val8Code).contains l) = true := by decide +kernel
  intro l k h
  have hl := find_mem h
  have e : Q = (Q).take ((kCode 0).length - val8Code.length) ++ val8Code := by rfl
  rw [e, find_app, h]
  intro hx
  have hx' : l ∈ labels ((kCode 0).take ((kCode 0).length - val8Code.length)) := hx
  have := List.all_eq_true.1 hd l hx'
  simp [List.contains_iff_mem, hl] at this

/-- A routine of `val8Code`, called from the compiler: what it does with a stack where there is only one return address. -/
theorem val_call {e k : Code} {st : List Slot} {m m1 : M} (he : Suf val8Code e) (hk : m.stk = .ret k :: st)
    (h : Reach val8Code e { m with stk := [.ret away] } away m1) (hv : ValKept8 { m with stk := [] } { m1 with zp := { m1.zp with tmp2h := m.zp.tmp2h } }) :
    Reach Q e m k { m1 with stk := st } ∧ ({ m1 with stk := st } : M).kv = { m.kv with stk := st, ci := m1.zp.cix } := by
  obtain ⟨n, hn⟩ := h
  obtain ⟨a, b⟩ := run_lift (cellsF valSpared) (cellsQ valSpared) (cellsF_keep valSpared) (fun _ _ => rfl) rfl valQ_all (val_in err) away_not8 (fun m => ⟨m, rfl⟩) (by simp [away]) k st n e
    { m with stk := [.ret away] } m1 [] he (fun _ h => by cases h) rfl hn
  have e : ({ { m with stk := [.ret away] } with stk := [] ++ .ret k :: st } : M) = m := by
    obtain ⟨_, _, _, _, _, _, _, _, _, _, _, _⟩ := m
    simp_all
  rw [e] at b
  refine ⟨b, ?_⟩
  simp only [cellsF, valSpared, List.map_cons, List.map_nil, Zp.get, Prod.mk.injEq, List.cons.injEq, and_true] at a
  obtain ⟨_, h2, h3, h4, _, _, _, _, _, _, h11, h12, h13, _⟩ := hv
  simp only at h2 h3 h4 h11 h12 h13
  simp only [M.kv, a, h2, h3, h4, h11, h12, h13]

end
end FB.Rt
