import Verif.Lemmas.WalkerRun
import Verif.Spec.History
import Mathlib.Data.List.TakeWhile

/-! # The settings after a history of calls -/

set_option autoImplicit false
set_option linter.unusedSectionVars false

namespace Uni.Walker
open Spec Gen
variable {K : Type} [Field K] [LinearOrder K] [IsStrictOrderedRing K] [FloorRing K] [Trig K]

/-! ## Values -/

theorem last_snoc {Ω α : Type} (accept : Ω → Option α) (d : α) (ops : List Ω) (o : Ω) :
    last accept d (ops ++ [o]) = (accept o).getD (last accept d ops) := by
  simp [last, List.foldl_append]

theorem last_runs {Ω α S : Type} (get : S → α) (step : S → Ω → S) (accept : Ω → Option α)
    (h : ∀ s o, get (step s o) = (accept o).getD (get s)) (s : S) (ops : List Ω) :
    get (ops.foldl step s) = last accept (get s) ops := by
  induction ops generalizing s with
  | nil => rfl
  | cons o ops ih =>
    rw [List.foldl_cons, ih, h]
    rfl

theorem since_snoc {α : Type} {attach : Op K → Bool} {carried : Op K → Option α} {o : Op K} (ha : attach o = true → carried o = none)
    (ops : List (Op K)) :
    since attach carried (ops ++ [o]) =
      match since attach carried ops with
      | some l => some (l ++ (carried o).toList)
      | none => if attach o then some [] else none := by
  unfold since
  by_cases h : ops.any attach = true
  · have h2 : (ops.dropWhile fun o => !attach o) ≠ [] := by
      intro e
      rw [List.dropWhile_eq_nil_iff] at e
      obtain ⟨x, hx, hx'⟩ := List.any_eq_true.1 h
      have := e x hx
      simp [hx'] at this
    rw [if_pos h, if_pos (by rw [List.any_append, h]; rfl), List.dropWhile_append]
    rw [if_neg (by simpa using h2)]
    simp only [List.filterMap_append, Option.some.injEq, List.append_cancel_left_eq]
    cases e : carried o <;> simp [e]
  · rw [if_neg h]
    have h2 : (ops.dropWhile fun o => !attach o) = [] := by
      rw [List.dropWhile_eq_nil_iff]
      intro x hx
      by_contra hc
      exact h (List.any_eq_true.2 ⟨x, hx, by simpa using hc⟩)
    rw [List.any_append, List.dropWhile_append, h2]
    simp only [Bool.not_eq_true] at h
    cases e : attach o with
    | true =>
      simp [h, e, List.dropWhile, ha e]
    | false => simp [h, e]

/-- The state of a generator follows the calls of its setters. -/
theorem obeys {S T α σ : Type} {attach : Op K → Bool} {carried : Op K → Option α} {o : Op K} {ops : List (Op K)}
    {p p' : Option (Plugin S T)} {get : S → σ} {step : σ → α → σ} {s₀ : σ} (ha : attach o = true → carried o = none)
    (h : p.map (fun q => get q.state) = (since attach carried ops).map (fun l => l.foldl step s₀))
    (h0 : attach o = true → p = none → p'.map (fun q => get q.state) = some s₀)
    (h1 : attach o = true → p ≠ none → p' = p)
    (h2 : attach o = false → p'.map (fun q => get q.state) =
      (p.map (fun q => get q.state)).map fun s => ((carried o).map (step s)).getD s) :
    p'.map (fun q => get q.state) = (since attach carried (ops ++ [o])).map (fun l => l.foldl step s₀) := by
  rw [since_snoc ha]
  cases e : since attach carried ops with
  | none =>
    rw [e] at h
    have hp : p = none := by simpa using h
    cases ea : attach o with
    | true => simpa using h0 ea hp
    | false => rw [h2 ea, hp]; rfl
  | some l =>
    rw [e] at h
    cases ea : attach o with
    | true =>
      rw [h1 ea (by rintro rfl; simp at h), h, ha ea]
      simp
    | false =>
      rw [h2 ea, h]
      cases carried o <;> simp [List.foldl_append]

/-! ## Calls that generate -/

/-- The settings of the ZMP generator. -/
def zmpSettings (z : Zmp K) : (Vec2 K × Vec2 K) × (Vec2 K × Vec2 K) := ((z.leftStance, z.rightStance), (z.leftSwitch, z.rightSwitch))

/-- The settings of the DCM generator. -/
def dcmSettings (d : Dcm K) : K × K × K × K × (Vec2 K × Vec2 K) × Bool :=
  (d.omega, d.alpha, d.stillness, d.lastOffset, (d.leftDelta, d.rightDelta), d.quintic)

/-- A call that generates changes no setting. -/
structure Kept (w w' : Walker K) : Prop where
  cfg : w'.cfg = w.cfg
  planner : ∃ evs : List (Event K), configurations evs = [] ∧ w'.planner = evs.foldl Event.apply w.planner
  cubic : w'.cubic.map (·.state) = w.cubic.map (·.state)
  minJerk : w'.minJerk.map (·.state) = w.minJerk.map (·.state)
  zmp : w'.zmp.map (fun p => zmpSettings p.state) = w.zmp.map (fun p => zmpSettings p.state)
  dcm : w'.dcm.map (fun p => dcmSettings p.state) = w.dcm.map (fun p => dcmSettings p.state)
  height : w'.height.map (·.state) = w.height.map (·.state)

theorem Kept.refl (w : Walker K) : Kept w w := ⟨rfl, ⟨[], rfl, rfl⟩, rfl, rfl, rfl, rfl, rfl⟩

theorem configurations_append (a b : List (Event K)) : configurations (a ++ b) = configurations a ++ configurations b := by
  induction a with
  | nil => rfl
  | cons e es ih => cases e <;> simp [configurations, ih]

theorem Kept.trans {a b c : Walker K} (h : Kept a b) (k : Kept b c) : Kept a c := by
  obtain ⟨e1, c1, p1⟩ := h.planner
  obtain ⟨e2, c2, p2⟩ := k.planner
  exact ⟨k.cfg.trans h.cfg, ⟨e1 ++ e2, by rw [configurations_append, c1, c2]; rfl, by rw [List.foldl_append, ← p1, p2]⟩,
    k.cubic.trans h.cubic, k.minJerk.trans h.minJerk, k.zmp.trans h.zmp, k.dcm.trans h.dcm, k.height.trans h.height⟩

theorem run_settings {S T σ : Type} {get : S → σ} {p p' : Option (Plugin S T)} {f : S → Out (Bool × S × Option T)} {b : Bool}
    (hf : ∀ s b s' r, f s = .ok (b, s', r) → get s' = get s) (h : Plugin.run p f = .ok (b, p')) :
    p'.map (fun q => get q.state) = p.map (fun q => get q.state) := by
  rcases Plugin.run_ok h with ⟨rfl, rfl, -⟩ | ⟨q, s, r, rfl, h1, rfl⟩ | ⟨q, rfl, -, -, rfl⟩
  · rfl
  · simp [hf _ _ _ _ h1]
  · rfl

variable {w w' : Walker K} {initTime dT : K} {ordered : List (Ptr K)} {t : Timing K}

theorem runZmp_settings {cfg : GenSettings K} {left right : FootPrint K} (s : Zmp K) (b : Bool) (s' : Zmp K) (r : Option (ZmpOut K))
    (h : runZmp cfg initTime dT left right ordered t s = .ok (b, s', r)) : zmpSettings s' = zmpSettings s := by
  unfold runZmp at h
  rw [Out.bind_eq_ok] at h
  obtain ⟨x, hx, h⟩ := h
  cases h
  unfold Zmp.computeNewTrajectories at hx
  simp only [Out.bind_eq_ok] at hx
  obtain ⟨_, -, _, -, _, -, _, -, _, -, _, -, hx⟩ := hx
  cases hx
  rfl

theorem runDcm_settings {cfg : GenSettings K} {left right : FootPrint K} (s : Dcm K) (b : Bool) (s' : Dcm K) (r : Option (DcmOut K))
    (h : runDcm cfg initTime dT left right ordered t s = .ok (b, s', r)) : dcmSettings s' = dcmSettings s := by
  unfold runDcm Dcm.computeNewTrajectories at h
  rw [Out.bind_eq_ok] at h
  obtain ⟨d1, h1, h⟩ := h
  have k1 : dcmSettings d1 = dcmSettings s := by
    unfold Dcm.setInitial at h1
    split_ifs at h1 with hc
    · cases h1; rfl
    · split at h1
      · cases h1; rfl
      · cases h1
  rw [← k1]
  have k2 : ∀ a x y z : _, dcmSettings ({ d1 with dT := dT }.setPauseConditions a x y z).2 = dcmSettings d1 := by
    intro a x y z
    unfold Dcm.setPauseConditions
    split_ifs <;> rfl
  split at h
  · split_ifs at h
    · cases h; rfl
    · cases h; rfl
    · split at h
      · rename_i d2 e
        have := k2 cfg.pauseActive (cfg.switchPercentage * cfg.maxStepTime) (cfg.switchPercentage * cfg.nominalStepTime) cfg.endSwitch
        rw [e] at this
        cases h
        exact this
      · rename_i d2 e
        have := k2 cfg.pauseActive (cfg.switchPercentage * cfg.maxStepTime) (cfg.switchPercentage * cfg.nominalStepTime) cfg.endSwitch
        rw [e] at this
        split at h
        · cases h
        · split at h
          · cases h; exact this
          · cases h; exact this
          · cases h
  · cases h; rfl

theorem Kept.fromFootPrints {left right : FootPrint K} {sorted : List (Ptr K)} {b : Bool}
    (h : w.generateFromFootPrints left right initTime dT sorted = .ok (b, w')) : Kept w w' := by
  obtain ⟨c, m, z, d, g, o, t, rfl, h1, h2, h3, h4, h5⟩ := fromFootPrints_ok h
  refine ⟨rfl, ⟨[], rfl, rfl⟩, ?_, ?_, ?_, ?_, ?_⟩
  · rcases h1 with rfl | ⟨b, h1⟩
    · rfl
    · refine run_settings (get := id) ?_ h1
      rintro s b s' r hf
      unfold runCubic at hf
      rw [Out.bind_eq_ok] at hf
      obtain ⟨x, -, hf⟩ := hf
      cases hf
      rfl
  · rcases h2 with rfl | ⟨b, h2⟩
    · rfl
    · refine run_settings (get := id) ?_ h2
      rintro s b s' r hf
      unfold runMinJerk at hf
      rw [Out.bind_eq_ok] at hf
      obtain ⟨x, -, hf⟩ := hf
      cases hf
      rfl
  · rcases h3 with rfl | ⟨b, h3⟩
    · rfl
    · exact run_settings runZmp_settings h3
  · rcases h4 with rfl | ⟨b, h4⟩
    · rfl
    · exact run_settings runDcm_settings h4
  · rcases h5 with rfl | ⟨b, h5⟩
    · rfl
    · refine run_settings (get := id) ?_ h5
      rintro s b s' r hf
      unfold runHeight at hf
      rw [Out.bind_eq_ok] at hf
      obtain ⟨x, -, hf⟩ := hf
      cases hf
      rfl

theorem Kept.fromMembers {sort : Sorter K} {b : Bool} (h : w.fromMembers initTime dT sort = .done b w') : Kept w w' := by
  unfold Walker.fromMembers at h
  split at h
  · rename_i e; cases h; exact .fromFootPrints e
  · cases h; exact .refl _
  · cases h

theorem planned {p p' : Planner K} {integ : Integrator K} {fuel : Nat} {left right left' right' : FootPrint K} {t0 t1 : K} {b : Bool}
    (h : p.computeNewSteps integ fuel left right t0 t1 = .done b p' left' right') :
    ∃ evs : List (Event K), configurations evs = [] ∧ p' = evs.foldl Event.apply p :=
  ⟨[.plan integ fuel left right t0 t1], rfl, by simp only [List.foldl_cons, List.foldl_nil, Event.apply, h]⟩

theorem Kept.handle {integ : Integrator K} (h : Handle integ w w') : Kept w w' := by
  cases h with
  | left l => exact { Kept.refl w with }
  | right r => exact { Kept.refl w with }
  | clear t b p e =>
    exact { Kept.refl w with
      planner := ⟨[.clear t], rfl, by simp only [List.foldl_cons, List.foldl_nil, Event.apply, e]⟩ }
  | plan fuel l r l' r' t0 t1 b p e => exact { Kept.refl w with planner := planned e }

theorem Kept.plan {integ : Integrator K} {fuel : Nat} {t0 t1 : K} {b : Bool} (h : w.plan integ fuel t0 t1 = .done b w') : Kept w w' := by
  unfold Walker.plan at h
  split at h
  · rename_i e; cases h; exact { Kept.refl w with planner := planned e }
  · cases h
  · cases h

theorem Kept.replan {integ : Integrator K} {fuel : Nat} {t0 t1 : K} {q : Request K} {b : Bool}
    (h : w.replan integ fuel t0 t1 q = .done b w') : Kept w w' := by
  unfold Walker.replan at h
  split at h
  · rename_i b' p' l' r' prev e
    cases h
    refine { Kept.refl w with planner := ?_, zmp := ?_ }
    · rcases replan_planner e with rfl | ⟨l, r, b', e⟩
      · exact ⟨[], rfl, rfl⟩
      · exact planned e
    · cases prev with
      | none => rfl
      | some s => cases w.zmp <;> rfl
  · cases h
  · cases h

theorem Kept.call {integ : Integrator K} {fuel : Nat} {sort : Sorter K} {c : Call K} {b : Bool}
    (h : w.call integ fuel sort c = .done b w') : Kept w w' := by
  cases c with
  | fromFootPrints l r t0 dT =>
    simp only [Walker.call] at h
    split at h
    · rename_i e; cases h; exact .fromFootPrints e
    · cases h; exact .refl _
    · cases h
  | generate t0 dT t1 =>
    rcases next_done h with ⟨w1, e1, e2⟩ | ⟨-, e⟩
    · exact (Kept.plan e1).trans (.fromMembers e2)
    · exact .plan e
  | reGenerate t0 dT t1 q =>
    rcases next_done h with ⟨w1, e1, e2⟩ | ⟨-, e⟩
    · exact (Kept.replan e1).trans (.fromMembers e2)
    · exact .replan e

end Uni.Walker
