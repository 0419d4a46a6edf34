import Verif.Spec.Separate
import Verif.Lemmas.WalkerRun
import Verif.Lemmas.MinJerk

/-! # The trajectory generators side by side -/

set_option autoImplicit false
set_option linter.unusedSectionVars false

namespace Uni
open Spec
variable {K : Type} [Field K] [LinearOrder K] [IsStrictOrderedRing K] [FloorRing K] [Trig K]

/-! ## The result of the planner does not depend on the fuel -/

namespace Planner

theorem loop_fuel {p : Planner K} {sol : K → UState K} (n k : Nat) : ∀ s : Loop K, p.loop sol n s ≠ .outOfFuel →
    p.loop sol (n + k) s = p.loop sol n s := by
  induction n with
  | zero => intro s h; exact absurd rfl h
  | succ n ih =>
    intro s h
    rw [show n + 1 + k = (n + k) + 1 by omega]
    simp only [loop] at h ⊢
    split_ifs at h ⊢
    · split
      · rename_i e
        rw [e] at h
        exact ih _ h
      · rfl
    · rfl

theorem plan_fuel {p : Planner K} {sol : K → UState K} {n : Nat} (k : Nat) {left right : Foot K} (h : p.plan sol n left right ≠ .outOfFuel) :
    p.plan sol (n + k) left right = p.plan sol n left right := by
  unfold plan at h ⊢
  split
  · rfl
  · rename_i e
    rw [e] at h
    simp only at h
    rw [loop_fuel]
    intro e
    rw [e] at h
    exact h rfl

theorem computeNewSteps_more {p : Planner K} {integ : Integrator K} {n : Nat} (k : Nat) {l r : FootPrint K} {t0 t1 : K}
    (h : p.computeNewSteps integ n l r t0 t1 ≠ .outOfFuel) :
    p.computeNewSteps integ (n + k) l r t0 t1 = p.computeNewSteps integ n l r t0 t1 := by
  unfold computeNewSteps at h ⊢
  split_ifs at h ⊢
  · rfl
  · rfl
  · rfl
  · split
    · rfl
    · rename_i e
      rw [e] at h
      simp only at h
      split
      · rfl
      · rfl
      · rename_i e
        rw [e] at h
        exact plan_fuel k h

theorem computeNewSteps_fuel {p : Planner K} {integ : Integrator K} {n m : Nat} {l r : FootPrint K} {t0 t1 : K}
    (h : p.computeNewSteps integ n l r t0 t1 ≠ .outOfFuel) (h' : p.computeNewSteps integ m l r t0 t1 ≠ .outOfFuel) :
    p.computeNewSteps integ n l r t0 t1 = p.computeNewSteps integ m l r t0 t1 := by
  rcases le_total n m with hle | hle
  · obtain ⟨k, rfl⟩ := Nat.exists_eq_add_of_le hle
    exact (computeNewSteps_more k h).symm
  · obtain ⟨k, rfl⟩ := Nat.exists_eq_add_of_le hle
    exact computeNewSteps_more k h'

end Planner

theorem planFrom_fuel {p : Planner K} {integ : Integrator K} {n m : Nat} {l r : FootPrint K} {t0 t1 : K}
    {prev : Option (Step K × Step K)} (h : Gen.planFrom p integ n l r t0 t1 prev ≠ .outOfFuel)
    (h' : Gen.planFrom p integ m l r t0 t1 prev ≠ .outOfFuel) :
    Gen.planFrom p integ n l r t0 t1 prev = Gen.planFrom p integ m l r t0 t1 prev := by
  unfold Gen.planFrom at h h' ⊢
  rw [Planner.computeNewSteps_fuel (n := n) (m := m)]
  · intro e; rw [e] at h; exact h rfl
  · intro e; rw [e] at h'; exact h' rfl

theorem measured_fuel {p : Planner K} {integ : Integrator K} {n m : Nat} {dcm : Gen.DcmVelocity K} {l r : FootPrint K} {t0 t1 : K}
    {mL mR : Step K} {c : Gen.Correction} (h : Gen.computeNewStepsFromMeasured p integ n dcm l r t0 t1 mL mR c ≠ .outOfFuel)
    (h' : Gen.computeNewStepsFromMeasured p integ m dcm l r t0 t1 mL mR c ≠ .outOfFuel) :
    Gen.computeNewStepsFromMeasured p integ n dcm l r t0 t1 mL mR c = Gen.computeNewStepsFromMeasured p integ m dcm l r t0 t1 mL mR c := by
  revert h h'
  unfold Gen.computeNewStepsFromMeasured
  rcases l.keepOnlyPresentStep t0 with ⟨_ | _, l1⟩
  · exact fun _ _ => rfl
  rcases r.keepOnlyPresentStep t0 with ⟨_ | _, r1⟩
  · exact fun _ _ => rfl
  rcases Gen.shouldReset dcm with reset | _ | _
  rotate_left
  · exact fun _ _ => rfl
  · exact fun _ _ => rfl
  simp only
  split_ifs with hc
  · rcases l1.getLastStep with _ | prevL
    · exact fun _ _ => rfl
    rcases r1.getLastStep with _ | prevR
    · exact fun _ _ => rfl
    simp only
    rcases Gen.replaceStep (c.editsLeft || reset) l1 _ with ⟨_ | _, l2⟩
    · exact fun _ _ => rfl
    rcases Gen.replaceStep (c.editsRight || reset) r1 _ with ⟨_ | _, r2⟩
    · exact fun _ _ => rfl
    exact planFrom_fuel
  · exact planFrom_fuel

/-! ## What a call that comes back does, in two objects -/

namespace Walker

/-- Two objects that agree on the steps and on what the planner sees of the DCM. -/
structure AlikePlan (a b : Walker K) : Prop extends SameSteps a b where
  velocity : a.dcmVelocity = b.dcmVelocity

theorem plan_alike {a b a' b' : Walker K} {integ : Integrator K} {n m : Nat} {t0 t1 : K} {u v : Bool} (h : SameSteps a b)
    (ha : a.plan integ n t0 t1 = .done u a') (hb : b.plan integ m t0 t1 = .done v b') :
    u = v ∧ ∃ p l r, a' = { a with planner := p, left := l, right := r } ∧ b' = { b with planner := p, left := l, right := r } := by
  unfold Walker.plan at ha hb
  rw [← h.planner, ← h.left, ← h.right] at hb
  rw [Planner.computeNewSteps_fuel (n := m) (m := n)] at hb
  · split at ha
    · rename_i e
      rw [e] at hb
      cases ha; cases hb
      exact ⟨rfl, _, _, _, rfl, rfl⟩
    · cases ha
    · cases ha
  · intro e; rw [e] at hb; cases hb
  · intro e; rw [e] at ha; cases ha

theorem replan_alike {a b a' b' : Walker K} {integ : Integrator K} {n m : Nat} {t0 t1 : K} {q : Gen.Request K} {u v : Bool}
    (h : AlikePlan a b) (ha : a.replan integ n t0 t1 q = .done u a') (hb : b.replan integ m t0 t1 q = .done v b') :
    u = v ∧ ∃ p l r f, a' = { a with planner := p, left := l, right := r, zmp := Plugin.set a.zmp f } ∧
      b' = { b with planner := p, left := l, right := r, zmp := Plugin.set b.zmp f } := by
  have set_id : ∀ z : Option (Plugin (Zmp K) (ZmpOut K)), Plugin.set z (fun z => z) = z := by
    intro z; cases z <;> rfl
  unfold Walker.replan at ha hb
  rw [← h.planner, ← h.left, ← h.right, ← h.velocity] at hb
  unfold Gen.replan at ha hb
  rw [measured_fuel (n := m) (m := n)] at hb
  · split at ha
    · rename_i prev e
      rw [e] at hb
      cases ha; cases hb
      cases prev with
      | none => exact ⟨rfl, _, _, _, fun z => z, by rw [set_id], by rw [set_id]⟩
      | some s => exact ⟨rfl, _, _, _, _, rfl, rfl⟩
    · cases ha
    · cases ha
  · intro e; rw [e] at hb; cases hb
  · intro e; rw [e] at ha; cases ha

/-- The steps and what is derived from them after `generateFromFootPrints`. -/
theorem generated_steps {a a' : Walker K} {l r : FootPrint K} {t0 dT : K} {sorted : List (Ptr K)} {u : Bool}
    (ha : a.generateFromFootPrints l r t0 dT sorted = .ok (u, a')) : a'.cfg = a.cfg ∧ a'.planner = a.planner ∧ a'.left = l ∧ a'.right = r ∧
      a'.outputs = Gen.outputsAfter a.cfg l r t0 dT sorted a.outputs ∧ (a.dcm = none → a'.dcm = none) := by
  unfold generateFromFootPrints at ha
  simp only at ha
  split at ha
  · obtain ⟨c, m, z, d, g, rfl, -, -, -, hd, -⟩ := trajectories_ok ha
    refine ⟨rfl, rfl, rfl, rfl, rfl, fun hn => ?_⟩
    rcases hd with rfl | ⟨x, hd⟩
    · exact hn
    · simp only at hd
      rw [hn] at hd
      cases hd
      rfl
  · cases ha
    exact ⟨rfl, rfl, rfl, rfl, rfl, fun h => h⟩
  · cases ha

theorem generated_alike {a b a' b' : Walker K} {l r : FootPrint K} {t0 dT : K} {sorted : List (Ptr K)} {u v : Bool} (h : SameSteps a b)
    (ha : a.generateFromFootPrints l r t0 dT sorted = .ok (u, a')) (hb : b.generateFromFootPrints l r t0 dT sorted = .ok (v, b')) :
    SameSteps a' b' := by
  obtain ⟨a1, a2, a3, a4, a5, -⟩ := generated_steps ha
  obtain ⟨b1, b2, b3, b4, b5, -⟩ := generated_steps hb
  exact ⟨by rw [a1, b1, h.cfg], by rw [a2, b2, h.planner], by rw [a3, b3], by rw [a4, b4], by rw [a5, b5, h.cfg, h.outputs]⟩

theorem run_fail {S T : Type} {p : Option (Plugin S T)} {f : S → Out (Bool × S × Option T)} : Plugin.run p f ≠ .fail := by
  unfold Plugin.run
  split
  · simp
  · split <;> simp

theorem bind_fail {A B : Type} {x : Out A} {f : A → Out B} (hx : x ≠ .fail) (hf : ∀ a, f a ≠ .fail) : (x >>= f) ≠ .fail := by
  cases x with
  | ok a => exact hf a
  | fail => exact absurd rfl hx
  | ub w => intro h; cases h

theorem trajectories_fail {a : Walker K} {t0 dT : K} {ordered : List (Ptr K)} {t : Timing K} : a.trajectories t0 dT ordered t ≠ .fail := by
  unfold trajectories
  refine bind_fail run_fail fun ⟨ok, p⟩ => ?_
  dsimp only
  cases ok
  · simp
  rw [if_neg (by simp)]
  refine bind_fail run_fail fun ⟨ok, p⟩ => ?_
  dsimp only
  cases ok
  · simp
  rw [if_neg (by simp)]
  refine bind_fail run_fail fun ⟨ok, p⟩ => ?_
  dsimp only
  cases ok
  · simp
  rw [if_neg (by simp)]
  refine bind_fail run_fail fun ⟨ok, p⟩ => ?_
  dsimp only
  cases ok
  · simp
  rw [if_neg (by simp)]
  refine bind_fail run_fail fun ⟨ok, p⟩ => ?_
  simp

theorem members_done {a a' : Walker K} {t0 dT : K} {sort : Sorter K} {u : Bool} (h : a.fromMembers t0 dT sort = .done u a') :
    a.generateFromFootPrints a.left a.right t0 dT (sort a.left a.right) = .ok (u, a') := by
  unfold fromMembers at h
  split at h
  · rename_i e; cases h; exact e
  · rename_i e
    unfold generateFromFootPrints at e
    simp only at e
    split at e
    · exact absurd e trajectories_fail
    · cases e
    · cases e
  · cases h

theorem call_done {a a' : Walker K} {l r : FootPrint K} {t0 dT : K} {sorted : List (Ptr K)} {u : Bool}
    (h : (match a.generateFromFootPrints l r t0 dT sorted with
      | .ok (b, w) => Result.done b w
      | .fail => .done false a
      | .ub why => .ub why) = .done u a') : a.generateFromFootPrints l r t0 dT sorted = .ok (u, a') := by
  split at h
  · rename_i e; cases h; exact e
  · rename_i e
    unfold generateFromFootPrints at e
    simp only at e
    split at e
    · exact absurd e trajectories_fail
    · cases e
    · cases e
  · cases h

/-- Without a DCM generator the steps depend on nothing but the steps. -/
theorem call_alike {a b a' b' : Walker K} {integ : Integrator K} {n m : Nat} {sort : Sorter K} {c : Call K} {u v : Bool} (h : SameSteps a b)
    (da : a.dcm = none) (db : b.dcm = none) (ha : a.call integ n sort c = .done u a') (hb : b.call integ m sort c = .done v b') :
    SameSteps a' b' ∧ a'.dcm = none ∧ b'.dcm = none := by
  cases c with
  | fromFootPrints l r t0 dT =>
    have ha := call_done ha
    have hb := call_done hb
    exact ⟨generated_alike h ha hb, (generated_steps ha).2.2.2.2.2 da, (generated_steps hb).2.2.2.2.2 db⟩
  | generate t0 dT t1 =>
    rcases next_done ha with ⟨a1, ha1, ha2⟩ | ⟨-, ha1⟩ <;> rcases next_done hb with ⟨b1, hb1, hb2⟩ | ⟨-, hb1⟩ <;>
      obtain ⟨e, p, l, r, rfl, rfl⟩ := plan_alike h ha1 hb1
    · have ha := members_done ha2
      have hb := members_done hb2
      exact ⟨generated_alike (by exact ⟨h.cfg, rfl, rfl, rfl, h.outputs⟩) ha hb, (generated_steps ha).2.2.2.2.2 da, (generated_steps hb).2.2.2.2.2 db⟩
    · cases e
    · cases e
    · exact ⟨⟨h.cfg, rfl, rfl, rfl, h.outputs⟩, da, db⟩
  | reGenerate t0 dT t1 q =>
    have hv : AlikePlan a b := ⟨h, by unfold dcmVelocity; rw [da, db]⟩
    rcases next_done ha with ⟨a1, ha1, ha2⟩ | ⟨-, ha1⟩ <;> rcases next_done hb with ⟨b1, hb1, hb2⟩ | ⟨-, hb1⟩ <;>
      obtain ⟨e, p, l, r, f, rfl, rfl⟩ := replan_alike hv ha1 hb1
    · have ha := members_done ha2
      have hb := members_done hb2
      exact ⟨generated_alike (by exact ⟨h.cfg, rfl, rfl, rfl, h.outputs⟩) ha hb, (generated_steps ha).2.2.2.2.2 da, (generated_steps hb).2.2.2.2.2 db⟩
    · cases e
    · cases e
    · exact ⟨⟨h.cfg, rfl, rfl, rfl, h.outputs⟩, da, db⟩

/-- Calls that succeed: every generator gets the same from all other parts. -/
theorem generated_but {x : Part} {a b a' b' : Walker K} {l r : FootPrint K} {t0 dT : K} {sorted : List (Ptr K)} (h : SameBut x a b)
    (ha : a.generateFromFootPrints l r t0 dT sorted = .ok (true, a')) (hb : b.generateFromFootPrints l r t0 dT sorted = .ok (true, b')) :
    SameBut x a' b' := by
  have hs := generated_alike h.toSameSteps ha hb
  unfold generateFromFootPrints at ha hb
  simp only at ha hb
  rw [← h.cfg] at hb
  split at ha
  case h_2 => cases ha
  case h_3 => cases ha
  rename_i ordered t e
  rw [e] at hb
  simp only at hb
  obtain ⟨c, m, z, d, g, a1, a2, a3, a4, a5, rfl⟩ := trajectories_true.mp ha
  obtain ⟨c', m', z', d', g', b1, b2, b3, b4, b5, rfl⟩ := trajectories_true.mp hb
  simp only at a1 a2 a3 a4 a5 b1 b2 b3 b4 b5
  refine ⟨hs, h.garbage, ?_, fun hx => ?_, fun hx => ?_, fun hx => ?_, fun hx => ?_⟩
  · rw [← h.dcm, a4] at b4
    cases b4; rfl
  · rw [← h.cubic hx, ← h.garbage, a1] at b1
    cases b1; rfl
  · rw [← h.minJerk hx, a2] at b2
    cases b2; rfl
  · rw [← h.zmp hx, a3] at b3
    cases b3; rfl
  · rw [← h.height hx, a5] at b5
    cases b5; rfl

theorem call_but {x : Part} {a b a' b' : Walker K} {integ : Integrator K} {n m : Nat} {sort : Sorter K} {c : Call K} (h : SameBut x a b)
    (ha : a.call integ n sort c = .done true a') (hb : b.call integ m sort c = .done true b') : SameBut x a' b' := by
  cases c with
  | fromFootPrints l r t0 dT => exact generated_but h (call_done ha) (call_done hb)
  | generate t0 dT t1 =>
    rcases next_done ha with ⟨a1, ha1, ha2⟩ | ⟨hf, -⟩
    swap
    · cases hf
    rcases next_done hb with ⟨b1, hb1, hb2⟩ | ⟨hf, -⟩
    swap
    · cases hf
    obtain ⟨-, p, l, r, rfl, rfl⟩ := plan_alike h.toSameSteps ha1 hb1
    have ha := members_done ha2
    have hb := members_done hb2
    exact generated_but (by exact ⟨⟨h.cfg, rfl, rfl, rfl, h.outputs⟩, h.garbage, h.dcm, h.cubic, h.minJerk, h.zmp, h.height⟩) ha hb
  | reGenerate t0 dT t1 q =>
    rcases next_done ha with ⟨a1, ha1, ha2⟩ | ⟨hf, -⟩
    swap
    · cases hf
    rcases next_done hb with ⟨b1, hb1, hb2⟩ | ⟨hf, -⟩
    swap
    · cases hf
    obtain ⟨-, p, l, r, f, rfl, rfl⟩ := replan_alike ⟨h.toSameSteps, by unfold dcmVelocity; rw [h.dcm]⟩ ha1 hb1
    have ha := members_done ha2
    have hb := members_done hb2
    exact generated_but (by exact ⟨⟨h.cfg, rfl, rfl, rfl, h.outputs⟩, h.garbage, h.dcm, h.cubic, h.minJerk,
      fun hx => by simp only; rw [h.zmp hx], h.height⟩) ha hb

/-! ## The ground plane -/

/-- The results of a generator for the feet that is attached. -/
def shows (p : Option (Plugin (FeetSettings K) (FeetOut K))) (o : FeetOut K) : Prop := ∃ q, p = some q ∧ q.result = some o

/-- The trajectories of the feet in the ground plane agree wherever both objects have them; the apex is at an instant of the swing. -/
structure Grounded (a b : Walker K) : Prop where
  cubic : ∀ o o', shows a.cubic o → shows b.cubic o' → groundOf o = groundOf o'
  minJerk : ∀ o o', shows a.minJerk o → shows b.minJerk o' → groundOf o = groundOf o'
  left : ∀ p, a.minJerk = some p → 0 < p.state.swingApex ∧ p.state.swingApex < 1
  right : ∀ p, b.minJerk = some p → 0 < p.state.swingApex ∧ p.state.swingApex < 1

theorem Grounded.symm {a b : Walker K} (h : Grounded a b) : Grounded b a :=
  ⟨fun o o' ho ho' => (h.cubic o' o ho' ho).symm, fun o o' ho ho' => (h.minJerk o' o ho' ho).symm, h.right, h.left⟩

theorem grounded_new {garbage : K} : Grounded (new garbage) (new garbage) := by
  have no : ∀ o : FeetOut K, ¬ shows none o := by
    intro o ho
    obtain ⟨_, hq, _⟩ := ho
    cases hq
  refine ⟨fun o _ ho => absurd ho (no o), fun o _ ho => absurd ho (no o), ?_, ?_⟩ <;>
  · intro p hp
    cases hp

theorem shows_attach {p : Option (Plugin (FeetSettings K) (FeetOut K))} {s : FeetSettings K} {o : FeetOut K} (h : shows (Plugin.attach p s) o) :
    shows p o := by
  cases p with
  | none => obtain ⟨q, hq, ho⟩ := h; cases hq; cases ho
  | some p => exact h

theorem shows_set {p : Option (Plugin (FeetSettings K) (FeetOut K))} {f : FeetSettings K → FeetSettings K} {o : FeetOut K}
    (h : shows (Plugin.set p f) o) : shows p o := by
  cases p with
  | none => obtain ⟨q, hq, ho⟩ := h; cases hq
  | some p => obtain ⟨q, hq, ho⟩ := h; cases hq; exact ⟨p, rfl, ho⟩

theorem apex_run {c : FeetSettings K} (o : FeetSettings.Op K) (h : 0 < c.swingApex ∧ c.swingApex < 1) :
    0 < (c.run o).2.swingApex ∧ (c.run o).2.swingApex < 1 := by
  cases o <;> simp only [FeetSettings.run]
  · split_ifs <;> exact h
  · exact h
  · split_ifs with hc
    · exact h
    · rw [not_or, not_le, not_le] at hc; exact hc
  · exact h

theorem Grounded.run {a b : Walker K} (h : Grounded a b) (o : Op K) : Grounded (a.run o) b := by
  cases o
  case addCubic => exact ⟨fun o o' ho => h.cubic o o' (shows_attach ho), h.minJerk, h.left, h.right⟩
  case cubic u => exact ⟨fun o o' ho => h.cubic o o' (shows_set (f := fun c => (c.run u).2) ho), h.minJerk, h.left, h.right⟩
  case addMinJerk =>
    refine ⟨h.cubic, fun o o' ho => h.minJerk o o' (shows_attach ho), fun p hp => ?_, h.right⟩
    cases e : a.minJerk with
    | none =>
      simp only [Walker.run, e, Plugin.attach] at hp
      cases hp
      simp only [FeetSettings.new]
      constructor <;> norm_num
    | some q =>
      simp only [Walker.run, e, Plugin.attach] at hp
      cases hp
      exact h.left _ e
  case minJerk u =>
    refine ⟨h.cubic, fun o o' ho => h.minJerk o o' (shows_set (f := fun c => (c.run u).2) ho), fun p hp => ?_, h.right⟩
    cases e : a.minJerk with
    | none => simp only [Walker.run, e, Plugin.set] at hp; cases hp
    | some q =>
      simp only [Walker.run, e, Plugin.set] at hp
      cases hp
      exact apex_run u (h.left _ e)
  all_goals exact ⟨h.cubic, h.minJerk, h.left, h.right⟩

end Walker

/-- Two runs of the loop over the phases whose bodies agree up to `f`. -/
theorem phaseLoop_map {S O V : Type} {body body' : Nat → Bool → Phase → Nat → Nat → S → Out (S × List O)} {f : O → V}
    (hb : ∀ k b p i j s x y, body k b p i j s = .ok x → body' k b p i j s = .ok y → x.1 = y.1 ∧ x.2.map f = y.2.map f)
    {phases : List Phase} {shifts : List Nat} {phase start : Nat} {s : S} {x y : S × List O}
    (h : phaseLoop body phases shifts phase start s = .ok x) (h' : phaseLoop body' phases shifts phase start s = .ok y) :
    x.1 = y.1 ∧ x.2.map f = y.2.map f := by
  induction shifts generalizing phase start s x y with
  | nil =>
    simp only [phaseLoop] at h h'
    cases h; cases h'
    exact ⟨rfl, rfl⟩
  | cons stop rest ih =>
    simp only [phaseLoop] at h h'
    cases hp : phases[start]? with
    | none => rw [hp] at h; simp at h
    | some p =>
      rw [hp] at h h'
      simp only at h h'
      by_cases h1 : phases.length < stop
      · rw [if_pos h1] at h; simp at h
      rw [if_neg h1] at h h'
      by_cases h2 : stop < start
      · rw [if_pos h2] at h; simp at h
      rw [if_neg h2, Out.bind_eq_ok] at h h'
      obtain ⟨u, hu, h⟩ := h
      obtain ⟨u', hu', h'⟩ := h'
      rw [Out.bind_eq_ok] at h h'
      obtain ⟨v, hv, h⟩ := h
      obtain ⟨v', hv', h'⟩ := h'
      cases h; cases h'
      obtain ⟨e1, e2⟩ := hb _ _ _ _ _ _ _ _ hu hu'
      rw [e1] at hv
      obtain ⟨e3, e4⟩ := ih hv hv'
      exact ⟨e3, by rw [List.map_append, List.map_append, e2, e4]⟩

theorem footBody_map {swing swing' : Step K → Step K → Nat → Out (List (FootSample K))}
    (hs : ∀ s s' n l l', swing s s' n = .ok l → swing' s s' n = .ok l' → l.map ground = l'.map ground)
    (k : Nat) (b : Bool) (p : Phase) (i j : Nat) (s : List (Step K)) (x y : List (Step K) × List (FootSample K))
    (h : footBody swing k b p i j s = .ok x) (h' : footBody swing' k b p i j s = .ok y) : x.1 = y.1 ∧ x.2.map ground = y.2.map ground := by
  unfold footBody at h h'
  cases s with
  | nil => cases h
  | cons s rest =>
    simp only at h h'
    split_ifs at h h'
    · cases rest with
      | nil => cases h
      | cons s' rest =>
        simp only at h h'
        rw [Out.bind_eq_ok] at h h'
        obtain ⟨u, hu, h⟩ := h
        obtain ⟨u', hu', h'⟩ := h'
        cases h; cases h'
        exact ⟨rfl, hs _ _ _ _ _ hu hu'⟩
    · cases h; cases h'
      exact ⟨rfl, rfl⟩

theorem CubicFeet.swing_ground {c c' : FeetSettings K} {z0 z0' dT : K} (s s' : Step K) (n : Nat) (l l' : List (FootSample K))
    (h : CubicFeet.swing c z0 dT s s' n = .ok l) (h' : CubicFeet.swing c' z0' dT s s' n = .ok l') : l.map ground = l'.map ground := by
  unfold CubicFeet.swing at h h'
  simp only at h h'
  rw [Out.bind_eq_ok] at h h'
  obtain ⟨x, hx, h⟩ := h
  obtain ⟨x', hx', h'⟩ := h'
  rw [hx] at hx'; cases hx'
  rw [Out.bind_eq_ok] at h h'
  obtain ⟨y, hy, h⟩ := h
  obtain ⟨y', hy', h'⟩ := h'
  rw [hy] at hy'; cases hy'
  rw [Out.bind_eq_ok] at h h'
  obtain ⟨z, -, h⟩ := h
  obtain ⟨z', -, h'⟩ := h'
  rw [Out.bind_eq_ok] at h h'
  obtain ⟨w, hw, h⟩ := h
  obtain ⟨w', hw', h'⟩ := h'
  rw [hw] at hw'; cases hw'
  rw [Out.bind_eq_ok] at h h'
  obtain ⟨q, -, h⟩ := h
  obtain ⟨q', -, h'⟩ := h'
  cases h; cases h'
  rw [List.map_map, List.map_map]
  rfl

/-- What a sample of a swing of the other generator is in the ground plane. -/
theorem MinJerk.sample_ground {dT : K} {s s' : Step K} {n j j0 j0' : Nat} {z0 z1 p0 p1 half z0' z1' p0' p1' half' : K} {x y : FootSample K}
    (h : MinJerk.swingSample dT s s' n z0 z1 p0 p1 half j0 j = .ok x)
    (h' : MinJerk.swingSample dT s s' n z0' z1' p0' p1' half' j0' j = .ok y) : ground x = ground y := by
  unfold MinJerk.swingSample at h h'
  simp only at h h'
  rw [Out.bind_eq_ok] at h h'
  obtain ⟨x, hx, h⟩ := h
  obtain ⟨x', hx', h'⟩ := h'
  rw [hx] at hx'; cases hx'
  rw [Out.bind_eq_ok] at h h'
  obtain ⟨y, hy, h⟩ := h
  obtain ⟨y', hy', h'⟩ := h'
  rw [hy] at hy'; cases hy'
  rw [Out.bind_eq_ok] at h h'
  obtain ⟨z, -, h⟩ := h
  obtain ⟨z', -, h'⟩ := h'
  rw [Out.bind_eq_ok] at h h'
  obtain ⟨q, -, h⟩ := h
  obtain ⟨q', -, h'⟩ := h'
  rw [Out.bind_eq_ok] at h h'
  obtain ⟨w, hw, h⟩ := h
  obtain ⟨w', hw', h'⟩ := h'
  rw [hw] at hw'; cases hw'
  cases h; cases h'
  rfl

/-- A sample number `j` of some swing with these ends. -/
def MinJerk.IsSample (dT : K) (s s' : Step K) (n j : Nat) (x : FootSample K) : Prop :=
  ∃ z0 z1 p0 p1 half j0, MinJerk.swingSample dT s s' n z0 z1 p0 p1 half j0 j = .ok x

theorem MinJerk.collect_samples {dT : K} {s s' : Step K} {n j0 : Nat} {z0 z1 p0 p1 half : K} {js : List Nat} {l : List (FootSample K)}
    (h : MinJerk.collect (MinJerk.swingSample dT s s' n z0 z1 p0 p1 half j0) js = .ok l) :
    List.Forall₂ (MinJerk.IsSample dT s s' n) js l := by
  induction js generalizing l with
  | nil => cases h; exact .nil
  | cons j js ih =>
    simp only [MinJerk.collect] at h
    rw [Out.bind_eq_ok] at h
    obtain ⟨a, ha, h⟩ := h
    rw [Out.bind_eq_ok] at h
    obtain ⟨b, hb, h⟩ := h
    cases h
    exact .cons ⟨_, _, _, _, _, _, ha⟩ (ih hb)

theorem MinJerk.swing_samples {c : FeetSettings K} {dT : K} {s s' : Step K} {n : Nat} {l : List (FootSample K)}
    (ha : 0 < c.swingApex ∧ c.swingApex < 1) (h : MinJerk.swing c dT s s' n = .ok l) :
    List.Forall₂ (MinJerk.IsSample dT s s' n) (List.range n) l := by
  unfold MinJerk.swing at h
  simp only at h
  rw [Out.bind_eq_ok] at h
  obtain ⟨up, hu, h⟩ := h
  rw [Out.bind_eq_ok] at h
  obtain ⟨down, hd, h⟩ := h
  cases h
  have hle := MinJerk.rising_le ha.1 ha.2 n
  have e : List.range n = List.range (MinJerk.rising c n) ++ List.range' (MinJerk.rising c n) (n - MinJerk.rising c n) := by
    rw [List.range_eq_range', List.range_eq_range']
    have := List.range'_append (s := 0) (m := MinJerk.rising c n) (n := n - MinJerk.rising c n) (step := 1)
    rw [show 0 + 1 * MinJerk.rising c n = MinJerk.rising c n by omega, show MinJerk.rising c n + (n - MinJerk.rising c n) = n by omega] at this
    exact this.symm
  rw [e]
  exact List.rel_append (MinJerk.collect_samples hu) (MinJerk.collect_samples hd)

theorem MinJerk.swing_ground {c c' : FeetSettings K} {dT : K} (ha : 0 < c.swingApex ∧ c.swingApex < 1)
    (ha' : 0 < c'.swingApex ∧ c'.swingApex < 1) (s s' : Step K) (n : Nat) (l l' : List (FootSample K))
    (h : MinJerk.swing c dT s s' n = .ok l) (h' : MinJerk.swing c' dT s s' n = .ok l') : l.map ground = l'.map ground := by
  have h1 := MinJerk.swing_samples ha h
  have h2 := MinJerk.swing_samples ha' h'
  clear h h'
  revert h1 h2
  generalize List.range n = js
  intro h1
  induction h1 generalizing l' with
  | nil => intro h2; cases h2; rfl
  | cons hx _ ih =>
    intro h2
    cases h2 with
    | cons hy ht =>
      obtain ⟨_, _, _, _, _, _, hx⟩ := hx
      obtain ⟨_, _, _, _, _, _, hy⟩ := hy
      rw [List.map_cons, List.map_cons, MinJerk.sample_ground hx hy, ih _ ht]

theorem CubicFeet.compute_ground {c c' : FeetSettings K} {z0 z0' dT : K} {left right : FootPrint K} {lp rp : List Phase} {shifts : List Nat}
    {o o' : FeetOut K} (h : CubicFeet.computeNewTrajectories c z0 dT left right lp rp shifts = .ok o)
    (h' : CubicFeet.computeNewTrajectories c' z0' dT left right lp rp shifts = .ok o') : groundOf o = groundOf o' := by
  have one : ∀ (ph : List Phase) (steps : List (Step K)) (l l' : List (FootSample K)), CubicFeet.interpolateFoot c z0 dT shifts ph steps = .ok l →
      CubicFeet.interpolateFoot c' z0' dT shifts ph steps = .ok l' → l.map ground = l'.map ground := by
    intro ph steps l l' h h'
    unfold CubicFeet.interpolateFoot at h h'
    split_ifs at h h'
    rw [Out.bind_eq_ok] at h h'
    obtain ⟨u, hu, h⟩ := h
    obtain ⟨u', hu', h'⟩ := h'
    cases h; cases h'
    exact (phaseLoop_map (footBody_map CubicFeet.swing_ground) hu hu').2
  unfold CubicFeet.computeNewTrajectories at h h'
  rw [Out.bind_eq_ok] at h h'
  obtain ⟨u, hu, h⟩ := h
  obtain ⟨u', hu', h'⟩ := h'
  rw [Out.bind_eq_ok] at h h'
  obtain ⟨v, hv, h⟩ := h
  obtain ⟨v', hv', h'⟩ := h'
  cases h; cases h'
  exact Prod.ext (one _ _ _ _ hu hu') (one _ _ _ _ hv hv')

theorem MinJerk.compute_ground {c c' : FeetSettings K} {dT : K} {left right : FootPrint K} {lp rp : List Phase} {shifts : List Nat}
    {o o' : FeetOut K} (ha : 0 < c.swingApex ∧ c.swingApex < 1) (ha' : 0 < c'.swingApex ∧ c'.swingApex < 1)
    (h : MinJerk.computeNewTrajectories c dT left right lp rp shifts = .ok o)
    (h' : MinJerk.computeNewTrajectories c' dT left right lp rp shifts = .ok o') : groundOf o = groundOf o' := by
  have one : ∀ (ph : List Phase) (steps : List (Step K)) (l l' : List (FootSample K)), MinJerk.interpolateFoot c dT shifts ph steps = .ok l →
      MinJerk.interpolateFoot c' dT shifts ph steps = .ok l' → l.map ground = l'.map ground := by
    intro ph steps l l' h h'
    unfold MinJerk.interpolateFoot at h h'
    split_ifs at h h'
    rw [Out.bind_eq_ok] at h h'
    obtain ⟨u, hu, h⟩ := h
    obtain ⟨u', hu', h'⟩ := h'
    cases h; cases h'
    exact (phaseLoop_map (footBody_map (MinJerk.swing_ground ha ha')) hu hu').2
  unfold MinJerk.computeNewTrajectories at h h'
  rw [Out.bind_eq_ok] at h h'
  obtain ⟨u, hu, h⟩ := h
  obtain ⟨u', hu', h'⟩ := h'
  rw [Out.bind_eq_ok] at h h'
  obtain ⟨v, hv, h⟩ := h
  obtain ⟨v', hv', h'⟩ := h'
  cases h; cases h'
  exact Prod.ext (one _ _ _ _ hu hu') (one _ _ _ _ hv hv')

namespace Walker

theorem generated_ground {a b a' b' : Walker K} {l r : FootPrint K} {t0 dT : K} {sorted : List (Ptr K)} (hc : a.cfg = b.cfg) (hg : Grounded a b)
    (ha : a.generateFromFootPrints l r t0 dT sorted = .ok (true, a')) (hb : b.generateFromFootPrints l r t0 dT sorted = .ok (true, b')) :
    Grounded a' b' := by
  unfold generateFromFootPrints at ha hb
  simp only at ha hb
  rw [← hc] at hb
  split at ha
  case h_2 => cases ha
  case h_3 => cases ha
  rename_i ordered t e
  rw [e] at hb
  simp only at hb
  obtain ⟨c, m, z, d, g, a1, a2, a3, a4, a5, rfl⟩ := trajectories_true.mp ha
  obtain ⟨c', m', z', d', g', b1, b2, b3, b4, b5, rfl⟩ := trajectories_true.mp hb
  simp only at a1 a2 b1 b2
  have cub : ∀ {p p' : Option (Plugin (FeetSettings K) (FeetOut K))} {z0 : K} {o : FeetOut K},
      Plugin.run p (runCubic z0 dT l r t) = .ok (true, p') → shows p' o →
      ∃ q, p = some q ∧ CubicFeet.computeNewTrajectories q.state z0 dT l r t.left t.right t.shifts = .ok o := by
    intro p p' z0 o h hs
    rcases Plugin.run_true.mp h with ⟨-, rfl⟩ | ⟨q, s, x, rfl, hf, rfl⟩
    · obtain ⟨_, hq, _⟩ := hs; cases hq
    · unfold runCubic at hf
      rw [Out.bind_eq_ok] at hf
      obtain ⟨u, hu, hf⟩ := hf
      cases hf
      obtain ⟨_, hq, ho⟩ := hs
      cases hq; cases ho
      exact ⟨q, rfl, hu⟩
  have jerk : ∀ {p p' : Option (Plugin (FeetSettings K) (FeetOut K))}, Plugin.run p (runMinJerk dT l r t) = .ok (true, p') →
      (∀ o, shows p' o → ∃ q, p = some q ∧ MinJerk.computeNewTrajectories q.state dT l r t.left t.right t.shifts = .ok o) ∧
      ∀ q', p' = some q' → ∃ q, p = some q ∧ q'.state = q.state := by
    intro p p' h
    rcases Plugin.run_true.mp h with ⟨-, rfl⟩ | ⟨q, s, x, rfl, hf, rfl⟩
    · exact ⟨fun o ho => by (obtain ⟨_, hq, _⟩ := ho; cases hq), fun q' hq => by cases hq⟩
    · unfold runMinJerk at hf
      rw [Out.bind_eq_ok] at hf
      obtain ⟨u, hu, hf⟩ := hf
      cases hf
      refine ⟨fun o ho => ?_, fun q' hq => ?_⟩
      · obtain ⟨_, hq, ho⟩ := ho
        cases hq; cases ho
        exact ⟨q, rfl, hu⟩
      · cases hq
        exact ⟨q, rfl, rfl⟩
  refine ⟨fun o o' ho ho' => ?_, fun o o' ho ho' => ?_, fun p hp => ?_, fun p hp => ?_⟩
  · obtain ⟨q, -, h1⟩ := cub a1 ho
    obtain ⟨q', -, h2⟩ := cub b1 ho'
    exact CubicFeet.compute_ground h1 h2
  · obtain ⟨q, e1, h1⟩ := (jerk a2).1 _ ho
    obtain ⟨q', e2, h2⟩ := (jerk b2).1 _ ho'
    exact MinJerk.compute_ground (hg.left _ e1) (hg.right _ e2) h1 h2
  · obtain ⟨q, e1, h1⟩ := (jerk a2).2 _ hp
    rw [h1]; exact hg.left _ e1
  · obtain ⟨q, e1, h1⟩ := (jerk b2).2 _ hp
    rw [h1]; exact hg.right _ e1

theorem call_ground {x : Part} {a b a' b' : Walker K} {integ : Integrator K} {n m : Nat} {sort : Sorter K} {c : Call K} (h : SameBut x a b)
    (hg : Grounded a b) (ha : a.call integ n sort c = .done true a') (hb : b.call integ m sort c = .done true b') : Grounded a' b' := by
  cases c with
  | fromFootPrints l r t0 dT => exact generated_ground h.cfg hg (call_done ha) (call_done hb)
  | generate t0 dT t1 =>
    rcases next_done ha with ⟨a1, ha1, ha2⟩ | ⟨hf, -⟩
    swap
    · cases hf
    rcases next_done hb with ⟨b1, hb1, hb2⟩ | ⟨hf, -⟩
    swap
    · cases hf
    obtain ⟨-, p, l, r, rfl, rfl⟩ := plan_alike h.toSameSteps ha1 hb1
    have ha := members_done ha2
    have hb := members_done hb2
    exact generated_ground (by exact h.cfg) (by exact ⟨hg.cubic, hg.minJerk, hg.left, hg.right⟩) ha hb
  | reGenerate t0 dT t1 q =>
    rcases next_done ha with ⟨a1, ha1, ha2⟩ | ⟨hf, -⟩
    swap
    · cases hf
    rcases next_done hb with ⟨b1, hb1, hb2⟩ | ⟨hf, -⟩
    swap
    · cases hf
    obtain ⟨-, p, l, r, f, rfl, rfl⟩ := replan_alike ⟨h.toSameSteps, by unfold dcmVelocity; rw [h.dcm]⟩ ha1 hb1
    have ha := members_done ha2
    have hb := members_done hb2
    exact generated_ground (by exact h.cfg) (by exact ⟨hg.cubic, hg.minJerk, hg.left, hg.right⟩) ha hb

/-! ## Two sequences of calls -/

/-- What a relation between two objects needs for sequences of calls that differ in calls to be skipped. -/
structure Simulates (integ : Integrator K) (sort : Sorter K) (good : Bool → Prop) (allowed : Op K → Prop) (skip : Deed K → Bool) (R : Walker K → Walker K → Prop) : Prop where
  ops : ∀ e, skip e = true → ∃ o, e = .op o
  steps : ∀ a b, R a b → SameSteps a b
  skipLeft : ∀ a b o, R a b → skip (.op o) = true → R (a.run o) b
  skipRight : ∀ a b o, R a b → skip (.op o) = true → R a (b.run o)
  op : ∀ a b o, R a b → skip (.op o) = false → allowed o → R (a.run o) (b.run o)
  call : ∀ a b a' b' n m c u v, R a b → good u → good v → a.call integ n sort c = .done u a' → b.call integ m sort c = .done v b' → R a' b'
  left : ∀ a b f, R a b → R { a with left := f } { b with left := f }
  right : ∀ a b f, R a b → R { a with right := f } { b with right := f }
  planner : ∀ a b p, R a b → R { a with planner := p } { b with planner := p }

variable {integ : Integrator K} {sort : Sorter K} {good : Bool → Prop} {allowed : Op K → Prop} {skip : Deed K → Bool} {R : Walker K → Walker K → Prop}

theorem Simulates.filter_cons (h : Simulates integ sort good allowed skip R) {e : Deed K} (he : ∀ o, e ≠ .op o) (l : List (Deed K)) :
    (e :: l).filter (fun e => !skip e) = e :: l.filter (fun e => !skip e) := by
  rw [List.filter_cons_of_pos]
  cases hs : skip e with
  | true => obtain ⟨o, ho⟩ := h.ops e hs; exact absurd ho (he o)
  | false => rfl

theorem Simulates.peel_nil (h : Simulates integ sort good allowed skip R) {b b' : Walker K} {l : List (Deed K)} {bs : List Bool}
    (hb : Ran integ sort b l bs b') (hl : l.filter (fun e => !skip e) = []) : ∀ a, R a b → R a b' := by
  induction hb with
  | nil w => exact fun a hr => hr
  | op w w' o l bs _ ih =>
    cases hs : skip (.op o) with
    | true =>
      rw [List.filter_cons_of_neg (by simp [hs])] at hl
      exact fun a hr => ih hl a (h.skipRight _ _ _ hr hs)
    | false => rw [List.filter_cons_of_pos (by simp [hs])] at hl; cases hl
  | call => rw [h.filter_cons (by simp)] at hl; cases hl
  | left => rw [h.filter_cons (by simp)] at hl; cases hl
  | right => rw [h.filter_cons (by simp)] at hl; cases hl
  | clear => rw [h.filter_cons (by simp)] at hl; cases hl
  | plan => rw [h.filter_cons (by simp)] at hl; cases hl

theorem Simulates.peel (h : Simulates integ sort good allowed skip R) {b b' : Walker K} {l : List (Deed K)} {bs : List Bool} {e : Deed K}
    {rest : List (Deed K)} (hb : Ran integ sort b l bs b') (hl : l.filter (fun e => !skip e) = e :: rest) :
    ∃ b1 tail, Ran integ sort b1 (e :: tail) bs b' ∧ tail.filter (fun e => !skip e) = rest ∧ ∀ a, R a b → R a b1 := by
  induction hb with
  | nil w => cases hl
  | op w w' o l bs hw ih =>
    cases hs : skip (.op o) with
    | true =>
      rw [List.filter_cons_of_neg (by simp [hs])] at hl
      obtain ⟨b1, tail, h1, h2, h3⟩ := ih hl
      exact ⟨b1, tail, h1, h2, fun a hr => h3 a (h.skipRight _ _ _ hr hs)⟩
    | false =>
      rw [List.filter_cons_of_pos (by simp [hs])] at hl
      cases hl
      exact ⟨w, l, .op _ _ _ _ _ hw, rfl, fun a hr => hr⟩
  | call w w1 w' fuel c b l bs h1 h2 =>
    rw [h.filter_cons (by simp)] at hl
    cases hl
    exact ⟨w, l, .call _ _ _ _ _ _ _ _ h1 h2, rfl, fun a hr => hr⟩
  | left w w' f l bs h1 =>
    rw [h.filter_cons (by simp)] at hl
    cases hl
    exact ⟨w, l, .left _ _ _ _ _ h1, rfl, fun a hr => hr⟩
  | right w w' f l bs h1 =>
    rw [h.filter_cons (by simp)] at hl
    cases hl
    exact ⟨w, l, .right _ _ _ _ _ h1, rfl, fun a hr => hr⟩
  | clear w w' t b p l bs h1 h2 =>
    rw [h.filter_cons (by simp)] at hl
    cases hl
    exact ⟨w, l, .clear _ _ _ _ _ _ _ h1 h2, rfl, fun a hr => hr⟩
  | plan w w' fuel fl fr fl' fr' t0 t1 b p l bs h1 h2 =>
    rw [h.filter_cons (by simp)] at hl
    cases hl
    exact ⟨w, l, .plan _ _ _ _ _ _ _ _ _ _ _ _ _ h1 h2, rfl, fun a hr => hr⟩

theorem Simulates.ran (h : Simulates integ sort good allowed skip R) {a a' : Walker K} {l : List (Deed K)} {bs : List Bool}
    (ha : Ran integ sort a l bs a') (hg : ∀ u ∈ bs, good u) (hw : ∀ o, Deed.op o ∈ l → allowed o) : ∀ {b b' : Walker K} {l' : List (Deed K)} {bs' : List Bool},
    Ran integ sort b l' bs' b' → (∀ u ∈ bs', good u) → R a b → l.filter (fun e => !skip e) = l'.filter (fun e => !skip e) → R a' b' := by
  induction ha with
  | nil w =>
    intro b b' l' bs' hb _ hr he
    exact h.peel_nil hb he.symm _ hr
  | op w w' o l bs _ ih =>
    intro b b' l' bs' hb hg' hr he
    cases hs : skip (.op o) with
    | true =>
      rw [List.filter_cons_of_neg (by simp [hs])] at he
      exact ih hg (fun o ho => hw o (List.mem_cons_of_mem _ ho)) hb hg' (h.skipLeft _ _ _ hr hs) he
    | false =>
      rw [List.filter_cons_of_pos (by simp [hs])] at he
      obtain ⟨b1, tail, h1, h2, h3⟩ := h.peel hb he.symm
      cases h1 with
      | op _ _ _ _ _ h1 => exact ih hg (fun o ho => hw o (List.mem_cons_of_mem _ ho)) h1 hg' (h.op _ _ _ (h3 _ hr) hs (hw o List.mem_cons_self)) h2.symm
  | call w w1 w' fuel c u l bs hc _ ih =>
    intro b b' l' bs' hb hg' hr he
    rw [h.filter_cons (by simp)] at he
    obtain ⟨b1, tail, h1, h2, h3⟩ := h.peel hb he.symm
    cases h1 with
    | call _ b2 _ m _ v _ bs1 h4 h5 =>
      exact ih (fun x hx => hg x (List.mem_cons_of_mem _ hx)) (fun o ho => hw o (List.mem_cons_of_mem _ ho)) h5 (fun x hx => hg' x (List.mem_cons_of_mem _ hx))
        (h.call _ _ _ _ _ _ _ _ _ (h3 _ hr) (hg _ List.mem_cons_self) (hg' _ List.mem_cons_self) hc h4) h2.symm
  | left w w' f l bs _ ih =>
    intro b b' l' bs' hb hg' hr he
    rw [h.filter_cons (by simp)] at he
    obtain ⟨b1, tail, h1, h2, h3⟩ := h.peel hb he.symm
    cases h1 with
    | left _ _ _ _ _ h1 => exact ih hg (fun o ho => hw o (List.mem_cons_of_mem _ ho)) h1 hg' (h.left _ _ _ (h3 _ hr)) h2.symm
  | right w w' f l bs _ ih =>
    intro b b' l' bs' hb hg' hr he
    rw [h.filter_cons (by simp)] at he
    obtain ⟨b1, tail, h1, h2, h3⟩ := h.peel hb he.symm
    cases h1 with
    | right _ _ _ _ _ h1 => exact ih hg (fun o ho => hw o (List.mem_cons_of_mem _ ho)) h1 hg' (h.right _ _ _ (h3 _ hr)) h2.symm
  | clear w w' t u p l bs hc _ ih =>
    intro b b' l' bs' hb hg' hr he
    rw [h.filter_cons (by simp)] at he
    obtain ⟨b1, tail, h1, h2, h3⟩ := h.peel hb he.symm
    cases h1 with
    | clear _ _ _ v p' _ _ h4 h5 =>
      rw [← (h.steps _ _ (h3 _ hr)).planner, hc] at h4
      cases h4
      exact ih hg (fun o ho => hw o (List.mem_cons_of_mem _ ho)) h5 hg' (h.planner _ _ _ (h3 _ hr)) h2.symm
  | plan w w' fuel fl fr fl' fr' t0 t1 u p l bs hc _ ih =>
    intro b b' l' bs' hb hg' hr he
    rw [h.filter_cons (by simp)] at he
    obtain ⟨b1, tail, h1, h2, h3⟩ := h.peel hb he.symm
    cases h1 with
    | plan _ _ m _ _ _ _ _ _ v p' _ _ h4 h5 =>
      rw [← (h.steps _ _ (h3 _ hr)).planner] at h4
      rw [Planner.computeNewSteps_fuel (n := m) (m := fuel) (by rw [h4]; simp) (by rw [hc]; simp), hc] at h4
      cases h4
      exact ih hg (fun o ho => hw o (List.mem_cons_of_mem _ ho)) h5 hg' (h.planner _ _ _ (h3 _ hr)) h2.symm

theorem simulates_but (x : Part) : Simulates integ sort (fun u => u = true) (fun _ => True) (ofPart x) (fun a b => SameBut x a b ∧ Grounded a b) where
  ops := by
    intro e he
    cases e
    case op o => exact ⟨o, rfl⟩
    all_goals cases he
  steps a b h := h.1.toSameSteps
  skipLeft a b o h hs := by
    refine ⟨?_, h.2.run o⟩
    obtain ⟨⟨h1, h2, h3, h4, h5⟩, h6, h7, h8, h9, h10, h11⟩ := h.1
    cases o <;> simp only [ofPart, decide_eq_true_eq, Bool.false_eq_true] at hs <;> subst hs <;>
      first
        | exact ⟨⟨h1, h2, h3, h4, h5⟩, h6, h7, fun hx => absurd rfl hx, h9, h10, h11⟩
        | exact ⟨⟨h1, h2, h3, h4, h5⟩, h6, h7, h8, fun hx => absurd rfl hx, h10, h11⟩
        | exact ⟨⟨h1, h2, h3, h4, h5⟩, h6, h7, h8, h9, fun hx => absurd rfl hx, h11⟩
        | exact ⟨⟨h1, h2, h3, h4, h5⟩, h6, h7, h8, h9, h10, fun hx => absurd rfl hx⟩
  skipRight a b o h hs := by
    refine ⟨?_, (h.2.symm.run o).symm⟩
    obtain ⟨⟨h1, h2, h3, h4, h5⟩, h6, h7, h8, h9, h10, h11⟩ := h.1
    cases o <;> simp only [ofPart, decide_eq_true_eq, Bool.false_eq_true] at hs <;> subst hs <;>
      first
        | exact ⟨⟨h1, h2, h3, h4, h5⟩, h6, h7, fun hx => absurd rfl hx, h9, h10, h11⟩
        | exact ⟨⟨h1, h2, h3, h4, h5⟩, h6, h7, h8, fun hx => absurd rfl hx, h10, h11⟩
        | exact ⟨⟨h1, h2, h3, h4, h5⟩, h6, h7, h8, h9, fun hx => absurd rfl hx, h11⟩
        | exact ⟨⟨h1, h2, h3, h4, h5⟩, h6, h7, h8, h9, h10, fun hx => absurd rfl hx⟩
  op a b o h _ _ := by
    refine ⟨?_, ((h.2.run o).symm.run o).symm⟩
    obtain ⟨⟨h1, h2, h3, h4, h5⟩, h6, h7, h8, h9, h10, h11⟩ := h.1
    cases o <;> simp only [Walker.run] <;>
      exact ⟨⟨by simp only [h1], by simp only [h2], h3, h4, h5⟩, h6, by simp only [h7], fun hx => by simp only [h8 hx],
        fun hx => by simp only [h9 hx], fun hx => by simp only [h10 hx], fun hx => by simp only [h11 hx]⟩
  call a b a' b' n m c u v h hu hv ha hb := by
    subst hu hv
    exact ⟨call_but h.1 ha hb, call_ground h.1 h.2 ha hb⟩
  left a b f h := by
    obtain ⟨⟨⟨h1, h2, h3, h4, h5⟩, h6, h7, h8, h9, h10, h11⟩, h12⟩ := h
    exact ⟨⟨⟨h1, h2, rfl, h4, h5⟩, h6, h7, h8, h9, h10, h11⟩, ⟨h12.cubic, h12.minJerk, h12.left, h12.right⟩⟩
  right a b f h := by
    obtain ⟨⟨⟨h1, h2, h3, h4, h5⟩, h6, h7, h8, h9, h10, h11⟩, h12⟩ := h
    exact ⟨⟨⟨h1, h2, h3, rfl, h5⟩, h6, h7, h8, h9, h10, h11⟩, ⟨h12.cubic, h12.minJerk, h12.left, h12.right⟩⟩
  planner a b p h := by
    obtain ⟨⟨⟨h1, h2, h3, h4, h5⟩, h6, h7, h8, h9, h10, h11⟩, h12⟩ := h
    exact ⟨⟨⟨h1, rfl, h3, h4, h5⟩, h6, h7, h8, h9, h10, h11⟩, ⟨h12.cubic, h12.minJerk, h12.left, h12.right⟩⟩

/-- The methods of any of the generators. -/
def ofAny (e : Deed K) : Bool := ofPart .cubic e || ofPart .minJerk e || ofPart .zmp e || ofPart .height e

theorem simulates_steps : Simulates integ sort (fun _ => True) (fun o => attachesDcm (.op o) = false) ofAny
    (fun a b => SameSteps a b ∧ a.dcm = none ∧ b.dcm = none) where
  ops := by
    intro e he
    cases e
    case op o => exact ⟨o, rfl⟩
    all_goals cases he
  steps a b h := h.1
  skipLeft a b o h hs := by
    obtain ⟨⟨h1, h2, h3, h4, h5⟩, h6, h7⟩ := h
    cases o <;> first | exact ⟨⟨h1, h2, h3, h4, h5⟩, h6, h7⟩ | simp [ofAny, ofPart] at hs
  skipRight a b o h hs := by
    obtain ⟨⟨h1, h2, h3, h4, h5⟩, h6, h7⟩ := h
    cases o <;> first | exact ⟨⟨h1, h2, h3, h4, h5⟩, h6, h7⟩ | simp [ofAny, ofPart] at hs
  op a b o h _ hd := by
    obtain ⟨⟨h1, h2, h3, h4, h5⟩, h6, h7⟩ := h
    cases o
    case addDcm => cases hd
    all_goals
      simp only [Walker.run]
      exact ⟨⟨by simp only [h1], by simp only [h2], h3, h4, h5⟩, by simp [h6, Plugin.set], by simp [h7, Plugin.set]⟩
  call a b a' b' n m c u v h _ _ ha hb := call_alike h.1 h.2.1 h.2.2 ha hb
  left a b f h := by
    obtain ⟨⟨h1, h2, h3, h4, h5⟩, h6, h7⟩ := h
    exact ⟨⟨h1, h2, rfl, h4, h5⟩, h6, h7⟩
  right a b f h := by
    obtain ⟨⟨h1, h2, h3, h4, h5⟩, h6, h7⟩ := h
    exact ⟨⟨h1, h2, h3, rfl, h5⟩, h6, h7⟩
  planner a b p h := by
    obtain ⟨⟨h1, h2, h3, h4, h5⟩, h6, h7⟩ := h
    exact ⟨⟨h1, rfl, h3, h4, h5⟩, h6, h7⟩

end Walker
end Uni
