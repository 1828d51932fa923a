import Verif.Props.C33
import Verif.Syn.NativeFpOpt
import Verif.Syn.NativeIntOpt
/-!
# C33 for the tables of the native compilers

The tables that `syntp` writes for the native compilers (`/repo/rules.mak:166-173`) parse the same as the tables that it reads.
-/
namespace FB
open Syn

/-- The whole of `syntax_optimize` when the deletion of the empty tables is safe in every place. -/
theorem C33_whole {X ρ : Type} (C : Conf X ρ) (n : Nat) (sl x o : SMs) (h : syntaxMerge n sl = some (true, x)) (ho : syntaxClean x = o) (d1 : (sl.map SM.name).Nodup) (d2 : (x.map SM.name).Nodup)
    (d3 : safeLoop (fun _ => false) (fun _ => false) (x.map SM.name) x = true) (d4 : n ∈ x.map SM.name) (d5 : n ∈ o.map SM.name) (d6 : x.map fill = x) (s : St X ρ) (r : Out X ρ) :
    Parses C o n s r ↔ Parses C sl n s r := by
  subst ho
  have h1 := (C33_clean C (fun _ => false) (fun _ => false) x d2 nofun d3 n d5).2 rfl s r
  rw [d6] at h1
  exact h1.trans ((C33_merge (X := X) (ρ := ρ) n sl x true d1 h).1 C n d4 s r)

namespace Syn.NativeFp
theorem merged_eq : syntaxMerge n_PARSE_START tables = some (true, merged) := by decide +kernel
theorem opt_eq : syntaxClean merged = opt := by decide +kernel
theorem d1 : (tables.map SM.name).Nodup := by decide +kernel
theorem d2 : (merged.map SM.name).Nodup := by decide +kernel
theorem d3 : safeLoop (fun _ => false) (fun _ => false) (merged.map SM.name) merged = true := by decide +kernel
theorem d4 : n_PARSE_START ∈ merged.map SM.name := by decide +kernel
theorem d5 : n_PARSE_START ∈ opt.map SM.name := by decide +kernel
theorem d6 : merged.map fill = merged := by decide +kernel
end Syn.NativeFp

namespace Syn.NativeInt
theorem merged_eq : syntaxMerge n_PARSE_START tables = some (true, merged) := by decide +kernel
theorem opt_eq : syntaxClean merged = opt := by decide +kernel
theorem d1 : (tables.map SM.name).Nodup := by decide +kernel
theorem d2 : (merged.map SM.name).Nodup := by decide +kernel
theorem d3 : safeLoop (fun _ => false) (fun _ => false) (merged.map SM.name) merged = true := by decide +kernel
theorem d4 : n_PARSE_START ∈ merged.map SM.name := by decide +kernel
theorem d5 : n_PARSE_START ∈ opt.map SM.name := by decide +kernel
theorem d6 : merged.map fill = merged := by decide +kernel
end Syn.NativeInt

/-- The floating point compiler: the optimizer gives the tables `NativeFp.opt`, and they parse the same as those in the syntax files, for every text, state and actions. -/
theorem C33_native_fp : syntaxOptimize NativeFp.n_PARSE_START true NativeFp.tables = some (true, NativeFp.opt) ∧
    ∀ {X ρ : Type} (C : Conf X ρ) (s : St X ρ) (r : Out X ρ), Parses C NativeFp.opt NativeFp.n_PARSE_START s r ↔ Parses C NativeFp.tables NativeFp.n_PARSE_START s r := by
  refine ⟨?_, fun C s r => C33_whole C _ _ _ _ NativeFp.merged_eq NativeFp.opt_eq NativeFp.d1 NativeFp.d2 NativeFp.d3 NativeFp.d4 NativeFp.d5 NativeFp.d6 s r⟩
  rw [← NativeFp.opt_eq]
  unfold syntaxOptimize
  rw [NativeFp.merged_eq]
  rfl

/-- The integer compiler. -/
theorem C33_native_int : syntaxOptimize NativeInt.n_PARSE_START true NativeInt.tables = some (true, NativeInt.opt) ∧
    ∀ {X ρ : Type} (C : Conf X ρ) (s : St X ρ) (r : Out X ρ), Parses C NativeInt.opt NativeInt.n_PARSE_START s r ↔ Parses C NativeInt.tables NativeInt.n_PARSE_START s r := by
  refine ⟨?_, fun C s r => C33_whole C _ _ _ _ NativeInt.merged_eq NativeInt.opt_eq NativeInt.d1 NativeInt.d2 NativeInt.d3 NativeInt.d4 NativeInt.d5 NativeInt.d6 s r⟩
  rw [← NativeInt.opt_eq]
  unfold syntaxOptimize
  rw [NativeInt.merged_eq]
  rfl

end FB
