import Verif.VM
/-!
# Behaviour of programs and simulation

`Refines P Q` is the specification "program `Q` behaves like program `P`": under every environment, if
`P` runs without undefined behaviour then so does `Q`, both end or both run for ever, they end with the
same memory and events, and at every moment what one has done is (a prefix of) what the other does.
-/

namespace FB

/-- `d` is less defined than `d'`: unspecified registers may have any value, all else is equal. -/
structure LessDef (d d' : D) : Prop where
  ax : d.ax = none ∨ d.ax = d'.ax
  saddr : d.saddr = none ∨ d.saddr = d'.saddr
  stk : d.stk = d'.stk
  mem : d.mem = d'.mem
  color : d.color = d'.color
  iochn : d.iochn = d'.iochn
  out : d.out = d'.out

/-- What the environment must satisfy: instructions outside the model do not look at unspecified
registers, only add events, and leave `PRINT_COLOR` and `IOCHN` alone; variables are in memory. -/
structure EnvOK (env : Env) : Prop where
  ext_mono : ∀ n ops d1 d2 d1', LessDef d1 d2 → env.ext n ops d1 = some d1' →
    ∃ d2', env.ext n ops d2 = some d2' ∧ LessDef d1' d2'
  ext_out : ∀ n ops d d', env.ext n ops d = some d' → d.out <+: d'.out
  ext_color : ∀ n ops d d', env.ext n ops d = some d' → d'.color = d.color
  ext_iochn : ∀ n ops d d', env.ext n ops d = some d' → d'.iochn = d.iochn
  heap_ram : ∀ n, n < 256 → env.isIO (env.varAddr n) = false ∧ env.isIO (env.varAddr n + 1) = false

/-- Start of a program (`interpreter.asm:140-210`): stacks empty, channel and colour 0, memory arbitrary. -/
def initCfg (P : List Codew) (m : W → B) : Cfg :=
  { code := P, rets := [], d := { ax := none, saddr := none, stk := [], mem := m, color := 0, iochn := 0, out := [] } }

/-- Events so far. -/
def Res.out? : Res → Option (List Event)
  | .run c => some c.d.out
  | .done d => some d.out
  | .wrong => none

def Safe (env : Env) (P : List Codew) (c : Cfg) : Prop := ∀ n, runN env P n c ≠ .wrong

/-- Runs to the end, with final memory `m` and events `o`. -/
def Ends (env : Env) (P : List Codew) (c : Cfg) (m : W → B) (o : List Event) : Prop :=
  ∃ n d, runN env P n c = .done d ∧ d.mem = m ∧ d.out = o

/-- At some time the events done are at least `o`. -/
def Does (env : Env) (P : List Codew) (c : Cfg) (o : List Event) : Prop :=
  ∃ n o', (runN env P n c).out? = some o' ∧ o <+: o'

/-- `c2` (in `Q`) behaves like `c1` (in `P`). -/
structure Behaves (env : Env) (P : List Codew) (c1 : Cfg) (Q : List Codew) (c2 : Cfg) : Prop where
  safe : Safe env Q c2
  ends : ∀ m o, Ends env P c1 m o ↔ Ends env Q c2 m o
  does : ∀ o, Does env P c1 o ↔ Does env Q c2 o

/-- `Q` behaves like `P` in every environment, for every initial memory, unless `P` has undefined
behaviour. -/
def Refines (P Q : List Codew) : Prop :=
  ∀ env, EnvOK env → ∀ m, Safe env P (initCfg P m) → Behaves env P (initCfg P m) Q (initCfg Q m)

theorem Refines.refl (P : List Codew) : Refines P P :=
  fun _ _ _ h => ⟨h, fun _ _ => Iff.rfl, fun _ => Iff.rfl⟩

theorem Refines.trans {P Q R : List Codew} (h1 : Refines P Q) (h2 : Refines Q R) : Refines P R := by
  intro env he m hs
  have a := h1 env he m hs
  have b := h2 env he m a.safe
  exact ⟨b.safe, fun x o => (a.ends x o).trans (b.ends x o), fun o => (a.does o).trans (b.does o)⟩

/-! ## Running -/

theorem runN_add (env : Env) (P : List Codew) (a b : Nat) (c : Cfg) :
    runN env P (a + b) c = match runN env P a c with
      | .run c' => runN env P b c'
      | r => r := by
  induction a generalizing c with
  | zero => simp [runN]
  | succ a ih =>
    rw [Nat.succ_add]; simp only [runN]
    cases h : step env P c <;> simp [ih]

theorem runN_add_run {env : Env} {P : List Codew} {a b : Nat} {c c' : Cfg}
    (h : runN env P a c = .run c') : runN env P (a + b) c = runN env P b c' := by
  rw [runN_add, h]

theorem runN_add_done {env : Env} {P : List Codew} {a b : Nat} {c : Cfg} {d : D}
    (h : runN env P a c = .done d) : runN env P (a + b) c = .done d := by
  rw [runN_add, h]

theorem runN_add_wrong {env : Env} {P : List Codew} {a b : Nat} {c : Cfg}
    (h : runN env P a c = .wrong) : runN env P (a + b) c = .wrong := by
  rw [runN_add, h]

theorem runN_done_le {env : Env} {P : List Codew} {a b : Nat} {c : Cfg} {d : D} (hab : a ≤ b)
    (h : runN env P a c = .done d) : runN env P b c = .done d := by
  obtain ⟨k, rfl⟩ := Nat.exists_eq_add_of_le hab; exact runN_add_done h

theorem runN_wrong_le {env : Env} {P : List Codew} {a b : Nat} {c : Cfg} (hab : a ≤ b)
    (h : runN env P a c = .wrong) : runN env P b c = .wrong := by
  obtain ⟨k, rfl⟩ := Nat.exists_eq_add_of_le hab; exact runN_add_wrong h

theorem Safe.after {env : Env} {P : List Codew} {a : Nat} {c c' : Cfg} (hs : Safe env P c)
    (h : runN env P a c = .run c') : Safe env P c' := by
  intro n hn; apply hs (a + n); rw [runN_add_run h, hn]

/-! ## Events only grow -/

theorem D.write_out (env : Env) (d : D) (a : W) (v : B) : d.out <+: (d.write env a v).out := by
  unfold D.write; split <;> simp

theorem D.read_out (env : Env) (d : D) (a : W) : d.out <+: (d.read env a).2.out := by
  unfold D.read; split <;> simp

end FB
