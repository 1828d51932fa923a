import Verif.Sim
/-! Helper lemmas about `sem`: it respects `LessDef`, only adds events, and leaves colour and channel
alone except for the instructions that set them. -/
namespace FB

def OptLess (x y : Option D) : Prop := ∀ a, x = some a → ∃ b, y = some b ∧ LessDef a b

theorem OptLess_none (y) : OptLess none y := by simp [OptLess]
theorem OptLess_some {a b} (h : LessDef a b) : OptLess (some a) (some b) := by simpa [OptLess]
theorem LessDef.refl (d : D) : LessDef d d := ⟨.inr rfl, .inr rfl, rfl, rfl, rfl, rfl, rfl⟩

section
variable {α : Type} {x : Option α} {d1 d2 : D} {env : Env}
theorem OptLess_map_same {f g : α → D} (h : ∀ a, LessDef (f a) (g a)) : OptLess (x.map f) (x.map g) := by
  cases x <;> simp [OptLess, h]
theorem OptLess_bind_same {f g : α → Option D} (h : ∀ a, OptLess (f a) (g a)) : OptLess (x.bind f) (x.bind g) := by
  cases x <;> simp_all [OptLess]
theorem OptLess_axW_map (hl : LessDef d1 d2) {f g : W → D} (h : ∀ a, LessDef (f a) (g a)) :
    OptLess (d1.axW.map f) (d2.axW.map g) := by
  rcases hl.ax with h1 | h1
  · simp [D.axW, h1, OptLess]
  · simp only [D.axW, h1]; exact OptLess_map_same h
theorem OptLess_axW_bind (hl : LessDef d1 d2) {f g : W → Option D} (h : ∀ a, OptLess (f a) (g a)) :
    OptLess (d1.axW.bind f) (d2.axW.bind g) := by
  rcases hl.ax with h1 | h1
  · simp [D.axW, h1, OptLess]
  · simp only [D.axW, h1]; exact OptLess_bind_same h
theorem OptLess_ax_bind (hl : LessDef d1 d2) {f g : Val → Option D} (h : ∀ a, OptLess (f a) (g a)) :
    OptLess (d1.ax.bind f) (d2.ax.bind g) := by
  rcases hl.ax with h1 | h1
  · simp [h1, OptLess]
  · simp only [h1]; exact OptLess_bind_same h
theorem OptLess_ax_map (hl : LessDef d1 d2) {f g : Val → D} (h : ∀ a, LessDef (f a) (g a)) :
    OptLess (d1.ax.map f) (d2.ax.map g) := by
  rcases hl.ax with h1 | h1
  · simp [h1, OptLess]
  · simpa [h1] using OptLess_map_same (fun a => h a)
theorem OptLess_axBool_map (hl : LessDef d1 d2) {f g : Bool → D} (h : ∀ a, LessDef (f a) (g a)) :
    OptLess ((d1.axBool).map f) ((d2.axBool).map g) := by
  rcases hl.ax with h1 | h1
  · simp [D.axBool, h1, OptLess]
  · simp only [D.axBool, h1]; exact OptLess_map_same h
theorem OptLess_saddr_bind (hl : LessDef d1 d2) {f g : W → Option D} (h : ∀ a, OptLess (f a) (g a)) :
    OptLess (d1.saddr.bind f) (d2.saddr.bind g) := by
  rcases hl.saddr with h1 | h1
  · simp [h1, OptLess]
  · simp only [h1]; exact OptLess_bind_same h
theorem OptLess_pop_bind (hl : LessDef d1 d2) {f g : Val × D → Option D}
    (h : ∀ v d1 d2, LessDef d1 d2 → OptLess (f (v, d1)) (g (v, d2))) :
    OptLess (d1.pop.bind f) (d2.pop.bind g) := by
  unfold D.pop; rw [← hl.stk]
  cases h1 : d1.stk
  · simp [OptLess]
  · exact h _ _ _ ⟨hl.ax, hl.saddr, rfl, hl.mem, hl.color, hl.iochn, hl.out⟩
theorem OptLess_push (hl : LessDef d1 d2) : OptLess d1.push d2.push := by
  unfold D.push
  rcases hl.ax with h1 | h1
  · simp [h1, OptLess]
  · rw [h1]; exact OptLess_map_same fun a => ⟨.inr rfl, hl.saddr, by simp [hl.stk], hl.mem, hl.color, hl.iochn, hl.out⟩
theorem OptLess_bind {x y : Option D} {f g : D → Option D} (hx : OptLess x y) (h : ∀ a b, LessDef a b → OptLess (f a) (g b)) :
    OptLess (x.bind f) (y.bind g) := by
  intro a ha
  simp only [Option.bind_eq_some_iff] at ha ⊢
  obtain ⟨b, hb, hb'⟩ := ha
  obtain ⟨c, hc, hc'⟩ := hx b hb
  obtain ⟨e, he, he'⟩ := h b c hc' a hb'
  exact ⟨e, ⟨c, hc, he⟩, he'⟩
theorem OptLess_map {x y : Option D} {f g : D → D} (hx : OptLess x y) (h : ∀ a b, LessDef a b → LessDef (f a) (g b)) :
    OptLess (x.map f) (y.map g) := by
  simpa [Option.map_eq_bind, Function.comp_def] using OptLess_bind (f := fun a => some (f a)) (g := fun a => some (g a)) hx (fun a b hab => OptLess_some (h a b hab))
theorem LessDef.setVal (hl : LessDef d1 d2) (w) : LessDef (d1.setVal w) (d2.setVal w) :=
  ⟨.inr rfl, hl.saddr, hl.stk, hl.mem, hl.color, hl.iochn, hl.out⟩
theorem LessDef.setAx (hl : LessDef d1 d2) (w) : LessDef (d1.setAx w) (d2.setAx w) :=
  ⟨.inr rfl, hl.saddr, hl.stk, hl.mem, hl.color, hl.iochn, hl.out⟩
theorem LessDef.setAx' (hl : LessDef d1 d2) {w w'} (h : w = w') : LessDef (d1.setAx w) (d2.setAx w') := h ▸ hl.setAx w
theorem LessDef.var (hl : LessDef d1 d2) (n) : d1.var env n = d2.var env n := by
  simp [D.var, hl.mem]
theorem LessDef.kill (hl : LessDef d1 d2) : LessDef d1.kill d2.kill :=
  ⟨.inl rfl, .inl rfl, hl.stk, hl.mem, hl.color, hl.iochn, hl.out⟩
theorem LessDef.killAx (hl : LessDef d1 d2) : LessDef d1.killAx d2.killAx :=
  ⟨.inl rfl, hl.saddr, hl.stk, hl.mem, hl.color, hl.iochn, hl.out⟩
theorem LessDef.write (hl : LessDef d1 d2) (a v) : LessDef (d1.write env a v) (d2.write env a v) := by
  unfold D.write
  split
  · exact ⟨hl.ax, hl.saddr, hl.stk, hl.mem, hl.color, hl.iochn, by simp [hl.out]⟩
  · exact ⟨hl.ax, hl.saddr, hl.stk, by simp [hl.mem], hl.color, hl.iochn, hl.out⟩
theorem LessDef.put (hl : LessDef d1 d2) {a b} (h : a = b) : LessDef (d1.put a) (d2.put b) :=
  ⟨hl.ax, hl.saddr, hl.stk, hl.mem, hl.color, hl.iochn, by simp [D.put, hl.out, hl.iochn, h]⟩
theorem LessDef.readSet (hl : LessDef d1 d2) (a) : LessDef ((d1.read env a).2.setAx ((d1.read env a).1.setWidth 16)) ((d2.read env a).2.setAx ((d2.read env a).1.setWidth 16)) := by
  unfold D.read
  split
  · exact ⟨.inr (by simp [D.setAx, D.setVal, hl.out]), hl.saddr, hl.stk, hl.mem, hl.color, hl.iochn, by simp [D.setAx, D.setVal, hl.out]⟩
  · exact ⟨.inr (by simp [D.setAx, D.setVal, hl.mem]), hl.saddr, hl.stk, hl.mem, hl.color, hl.iochn, by simp [D.setAx, D.setVal, hl.out]⟩
end

theorem sem_out {env : Env} (he : EnvOK env) {t ops d d'} (h : sem env t ops d = some d') :
    d.out <+: d'.out := by
  unfold sem at h
  split at h
  case h_41 => exact he.ext_out _ _ _ _ h
  case h_42 => 
    split at h
    · simp only [Option.map_eq_some_iff, Option.bind_eq_some_iff] at h
      grind [D.pop, D.setVal, D.setAx,  List.prefix_refl]
    · simp only [Option.map_eq_some_iff, Option.bind_eq_some_iff] at h
      grind [D.pop, D.setVal, D.setAx,  List.prefix_refl]
  all_goals (simp only [Option.map_eq_some_iff, Option.bind_eq_some_iff, Option.some.injEq, D.push, reduceCtorEq] at h)
  all_goals try grind [D.pop, D.write, D.read, D.setVal, D.setAx, D.kill, D.killAx, D.put, List.prefix_append, List.prefix_append_of_prefix, List.prefix_refl]

theorem sem_color {env : Env} (he : EnvOK env) {t ops d d'} (h : sem env t ops d = some d')
   (hn : Codew.byteStr "PRINT_COLOR" ∉ ops) :
    d'.color = d.color := by
  unfold sem at h
  split at h
  case h_41 => exact he.ext_color _ _ _ _ h
  case h_42 => 
    split at h
    · simp only [Option.map_eq_some_iff, Option.bind_eq_some_iff] at h
      grind [D.pop, D.setVal, D.setAx]
    · simp only [Option.map_eq_some_iff, Option.bind_eq_some_iff] at h
      grind [D.pop, D.setVal, D.setAx]
  all_goals (simp only [Option.map_eq_some_iff, Option.bind_eq_some_iff, Option.some.injEq, D.push, reduceCtorEq] at h)
  all_goals try grind [D.pop, D.write, D.read, D.setVal, D.setAx, D.kill, D.killAx, D.put]

theorem sem_iochn {env : Env} (he : EnvOK env) {t ops d d'} (h : sem env t ops d = some d')
   (hn : t ≠ .IOCHN) : d'.iochn = d.iochn := by
  unfold sem at h
  split at h
  case h_41 => exact he.ext_iochn _ _ _ _ h
  case h_42 => 
    split at h
    · simp only [Option.map_eq_some_iff, Option.bind_eq_some_iff] at h
      grind [D.pop, D.setVal, D.setAx]
    · simp only [Option.map_eq_some_iff, Option.bind_eq_some_iff] at h
      grind [D.pop, D.setVal, D.setAx]
  all_goals (simp only [Option.map_eq_some_iff, Option.bind_eq_some_iff, Option.some.injEq, D.push, reduceCtorEq] at h)
  all_goals try grind [D.pop, D.write, D.read, D.setVal, D.setAx, D.kill, D.killAx, D.put]

theorem sem_mono' {env : Env} (he : EnvOK env) {t ops d1 d2} (hl : LessDef d1 d2) :
   OptLess (sem env t ops d1) (sem env t ops d2) := by
  unfold sem
  split
  case h_41 => exact fun a h => he.ext_mono _ _ _ _ _ hl h
  case h_42 => 
    split
    · exact OptLess_pop_bind hl fun v d1 d2 hl => OptLess_ax_bind hl fun a => OptLess_map_same fun w => hl.setVal w
    · exact OptLess_bind_same fun v => OptLess_axW_map hl fun a => hl.setAx _
  all_goals
    repeat' first
      | exact OptLess_none _
      | exact hl.readSet _
      | exact OptLess_push ‹_›
      | (apply OptLess_axW_map ‹_›; intro _)
      | (apply OptLess_axW_bind ‹_›; intro _)
      | (apply OptLess_ax_map ‹_›; intro _)
      | (apply OptLess_ax_bind ‹_›; intro _)
      | (apply OptLess_axBool_map ‹_›; intro _)
      | (apply OptLess_saddr_bind ‹_›; intro _)
      | (apply OptLess_pop_bind ‹_›; intro _ _ _ _)
      | (apply OptLess_bind (OptLess_push ‹_›); intro _ _ _)
      | (apply OptLess_map (OptLess_push ‹_›); intro _ _ _)
      | (apply OptLess_map_same; intro _)
      | (apply OptLess_bind_same; intro _)
      | (apply OptLess_some)
      | apply LessDef.setAx ‹_›
      | apply LessDef.setVal ‹_›
      | apply LessDef.kill
      | apply LessDef.killAx
      | apply LessDef.write
      | apply LessDef.put
      | assumption
  all_goals
    (first | rfl | skip)
  all_goals
    have e1 := hl.mem
    have e2 := hl.color
    have e3 := hl.out
    have e4 := hl.iochn
    have e5 := hl.stk
    have e6 := hl.saddr
    have e7 := hl.ax
  case h_10 => apply LessDef.setAx' ‹_›; apply LessDef.var ‹_›
  case h_38 =>
    rename_i hl'' _
    refine ⟨.inr ?_, hl''.saddr, hl''.stk, ?_, hl''.color, hl''.iochn, hl''.out⟩ <;> simp [D.setAx, D.setVal, e1]
  case h_40 =>
    split
    · refine OptLess_some (LessDef.killAx ⟨e7, e6, e5, e1, e2, rfl, e3⟩)
    · exact OptLess_none _
  all_goals try (split)
  all_goals first
    | (constructor <;> simp_all [D.var, D.setAx, D.setVal, D.killAx] <;> done)
    | (simp_all [D.var]; done)
    | (exact (hl.write _ _).killAx)
    | (exact OptLess_some (hl.readSet _))
    | (exact OptLess_map_same fun _ => hl.setAx _)
    | (rw [hl.var]; exact OptLess_map_same fun _ => hl.setVal _)
    | (rw [e1]; exact OptLess_map_same fun _ => (hl.put (by rw [e2])).killAx)


end FB
