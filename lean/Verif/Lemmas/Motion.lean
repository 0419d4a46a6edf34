import Verif.Spec.GoTo
import Verif.Props.Follow
import Verif.Props.Steady

/-! # The motion planned for the person-following controller -/

set_option autoImplicit false
set_option linter.unusedSectionVars false

namespace Uni
open Spec
namespace Planner

/-! ## The reference -/

theorem findRev_served {t : ℝ} {x : TrajPoint ℝ} (hx : x.initTime ≤ t) : ∀ (l : List (TrajPoint ℝ)) (next : Option (TrajPoint ℝ)),
    l.Pairwise (fun a b => b.initTime ≤ a.initTime) → x ∈ l → (∀ q, next = some q → t < q.initTime) →
    ∃ a b, PersonCtrl.findRev t next l = some (a, b) ∧ a ∈ l ∧ x.initTime ≤ a.initTime ∧ a.initTime ≤ t ∧
      ∀ q, b = some q → t < q.initTime ∧ (q ∈ l ∨ next = some q)
  | [], _, _, h, _ => by cases h
  | y :: l, next, hs, hm, hn => by
    unfold PersonCtrl.findRev
    by_cases hy : y.initTime ≤ t
    · rw [if_pos hy]
      refine ⟨y, next, rfl, List.mem_cons_self, ?_, hy, fun q hq => ⟨hn q hq, .inr hq⟩⟩
      rcases List.mem_cons.mp hm with rfl | hm
      · exact le_rfl
      · exact List.rel_of_pairwise_cons hs hm
    · rw [if_neg hy]
      have hm' : x ∈ l := by
        rcases List.mem_cons.mp hm with rfl | hm
        · exact absurd hx hy
        · exact hm
      obtain ⟨a, b, h1, h2, h3, h4, h5⟩ := findRev_served hx l (some y) hs.of_cons hm' (fun q hq => by cases hq; exact not_le.mp hy)
      refine ⟨a, b, h1, List.mem_cons_of_mem _ h2, h3, h4, fun q hq => ?_⟩
      obtain ⟨g1, g2⟩ := h5 q hq
      refine ⟨g1, .inl ?_⟩
      rcases g2 with g2 | g2
      · exact List.mem_cons_of_mem _ g2
      · cases g2; exact List.mem_cons_self

/-- Once a desired point has been reached there is a reference, between two points of the trajectory of which the first is not
older than the one reached. -/
theorem served {c : PersonCtrl ℝ} {t : ℝ} {x : TrajPoint ℝ} (hs : InTimeOrder c.traj) (hx : x ∈ c.traj) (h0 : 0 ≤ t)
    (ht : x.initTime ≤ t) : ∃ y yDot, c.getDesiredPoint t = .ok (y, yDot) ∧
      ∀ A : Vec2 ℝ, (∀ z ∈ c.traj, x.initTime ≤ z.initTime → z.y = A ∧ z.yDot = 0) → y = A ∧ yDot = 0 := by
  obtain ⟨a, b, h1, h2, h3, h4, h5⟩ := findRev_served ht c.traj.reverse none (List.pairwise_reverse.mpr hs)
    (List.mem_reverse.mpr hx) (fun q hq => by cases hq)
  unfold PersonCtrl.getDesiredPoint PersonCtrl.desiredPoint
  rw [if_neg (not_lt.mpr h0)]
  cases htr : c.traj with
  | nil => rw [htr] at hx; cases hx
  | cons first rest =>
    have hf : first.initTime ≤ t := by
      rw [htr] at hs hx
      rcases List.mem_cons.mp hx with rfl | hx
      · exact ht
      · exact (List.rel_of_pairwise_cons hs hx).trans ht
    rw [htr] at h1 h2 h5
    simp only [h1, if_neg (not_lt.mpr hf)]
    cases b with
    | none => exact ⟨a.y, a.yDot, rfl, fun A hA => hA a (List.mem_reverse.mp h2) h3⟩
    | some q =>
      obtain ⟨g1, g2⟩ := h5 q rfl
      have g3 : q ∈ first :: rest := by
        rcases g2 with g2 | g2
        · exact List.mem_reverse.mp g2
        · cases g2
      simp only [PersonCtrl.interpolateReferences]
      rw [if_neg (by linarith)]
      refine ⟨_, _, rfl, fun A hA => ?_⟩
      obtain ⟨a1, a2⟩ := hA a (List.mem_reverse.mp h2) h3
      obtain ⟨b1, b2⟩ := hA q g3 (by linarith)
      rw [a1, a2, b1, b2]
      constructor
      · ext <;> simp <;> ring
      · ext <;> simp

/-- The command exists whenever there is a reference. -/
theorem control_served {q : Planner ℝ} (hq : q.controller = .personFollowing) (g t : ℝ) (s : UState ℝ) {r : Vec2 ℝ × Vec2 ℝ}
    (h : q.ctrl.person.getDesiredPoint t = .ok r) : ∃ c, q.controlAt g t s = some c := by
  have hdes : (q.ctrl.person.setFeedback t s.position s.angle).getDesiredPoint t = .ok r := h
  simp only [controlAt, hq, PersonCtrl.doUnicycleControl, PersonCtrl.getDesiredPointInFreeSpaceEllipse, bind, Out.bind]
  rw [show (q.ctrl.person.setFeedback t s.position s.angle).time = t from rfl, hdes]
  simp [BaseCtrl.doControl]

theorem trajectory_served {f : ℝ → UState ℝ → Option (Control ℝ)} {a : ℝ} (hf : ∀ t s, a ≤ t → ∃ c, f t s = some c) :
    ∀ (ds : List ℝ) (t : ℝ) (u : UState ℝ), (∀ x ∈ ds, 0 ≤ x) → a ≤ t → ∃ l, trajectory f ds t u = some l ∧ l.length = ds.length + 1
  | [], _, u, _, _ => ⟨[u], rfl, rfl⟩
  | d :: ds, t, u, hds, ht => by
    obtain ⟨c, hc⟩ := hf t u ht
    obtain ⟨l, hl, hn⟩ := trajectory_served hf ds (t + d) (eulerStep d u c) (fun x hx => hds x (List.mem_cons_of_mem _ hx))
      (by linarith [hds d List.mem_cons_self])
    exact ⟨u :: l, by simp [trajectory, hc, hl], by simp [hn]⟩

/-- From any of its states on, an integrated motion is the one integrated from that state. -/
theorem trajectory_drop {f : ℝ → UState ℝ → Option (Control ℝ)} : ∀ (i : Nat) (ds : List ℝ) (t : ℝ) (u : UState ℝ)
    (l : List (UState ℝ)), trajectory f ds t u = some l → i ≤ ds.length →
    ∃ s, l[i]? = some s ∧ trajectory f (ds.drop i) (instant ds t i) s = some (l.drop i)
  | 0, ds, t, u, l, h, _ => by
    have e : instant ds t 0 = t := by cases ds <;> rfl
    rw [e]
    cases ds with
    | nil => cases h; exact ⟨u, rfl, rfl⟩
    | cons d ds =>
      have h' := h
      simp only [trajectory, Option.bind_eq_some_iff, Option.map_eq_some_iff] at h'
      obtain ⟨c, -, l', -, rfl⟩ := h'
      exact ⟨u, rfl, h⟩
  | i + 1, [], _, _, _, _, hi => by simp at hi
  | i + 1, d :: ds, t, u, l, h, hi => by
    simp only [trajectory, Option.bind_eq_some_iff, Option.map_eq_some_iff] at h
    obtain ⟨c, -, l', h2, rfl⟩ := h
    obtain ⟨s, g1, g2⟩ := trajectory_drop i ds (t + d) (eulerStep d u c) l' h2 (by simpa using hi)
    exact ⟨s, by simpa using g1, by simpa [instant] using g2⟩

theorem instant_drop : ∀ (i : Nat) (ds : List ℝ) (t : ℝ) (j : Nat), i ≤ ds.length →
    ((ds.drop i).take j).sum = instant ds t (i + j) - instant ds t i
  | 0, [], t, j, _ => by cases j <;> simp [instant]
  | 0, d :: ds, t, 0, _ => by simp
  | 0, d :: ds, t, j + 1, _ => by
    have := instant_drop 0 ds (t + d) j (Nat.zero_le _)
    have e : instant ds (t + d) 0 = t + d := by cases ds <;> rfl
    rw [e] at this
    simp only [List.drop_zero, Nat.zero_add, List.take_succ_cons, List.sum_cons] at this ⊢
    rw [this]
    simp only [instant]
    ring
  | i + 1, [], t, j, h => by simp at h
  | i + 1, d :: ds, t, j, h => by
    rw [List.drop_succ_cons, instant_drop i ds (t + d) j (by simpa using h), show i + 1 + j = (i + j) + 1 by omega]
    rfl

variable {p p' : Planner ℝ} {integ : Integrator ℝ} {fuel : Nat} {durations : ℝ → ℝ → List ℝ} {garbage : ℝ} {left right left' right' : FootPrint ℝ} {t0 t1 T : ℝ} {d : Plan ℝ} {target : Vec2 ℝ}

/-- The motion of a plan, if there is a command from the beginning on: the states of the integrated motion, read at the nearest
instant. -/
theorem integrated_motion (hs : FixedStep durations) (hh : 0 < p.integratorStep)
    (hd : PlanOf p integ left right t0 t1 left' right' d) {c0 : Controllers ℝ} {u : UState ℝ}
    (hi : (∃ f, (euler durations garbage { d.q with ctrl := c0 } u t0 t1).2 = some f) →
      integ { d.q with ctrl := c0 } u t0 t1 = euler durations garbage { d.q with ctrl := c0 } u t0 t1)
    (hint : integ { d.q with ctrl := c0 } u t0 t1 = (d.q.ctrl, some d.sol))
    (hok : ∀ t s, t0 ≤ t → ∃ c, controlAt { d.q with ctrl := c0 } garbage t s = some c) :
    ∃ (n : Nat) (r : ℝ) (l : List (UState ℝ)), 0 < r ∧ r ≤ p.integratorStep ∧ n * p.integratorStep + r = t1 - t0 ∧
      trajectory (controlAt { d.q with ctrl := c0 } garbage) (List.replicate n p.integratorStep ++ [r]) t0 u = some l ∧
      l.length = n + 2 ∧
      ∀ τ, d.sol τ = l.getD (min (stdRound ((τ - t0) / p.integratorStep)).toNat (n + 1)) u := by
  have hq := hd.begins.eq
  have qs : d.q.integratorStep = p.integratorStep := by rw [hq]
  obtain ⟨n, r, r1, r2, r3, r4⟩ := hs (t1 - t0) p.integratorStep (sub_pos.mpr hd.begins.lt) hh
  obtain ⟨l, l1, l2⟩ := trajectory_served (f := controlAt { d.q with ctrl := c0 } garbage) (a := t0)
    (fun t s ht => hok t s ht)
    (List.replicate n p.integratorStep ++ [r]) t0 u (by
      intro x hx
      rcases List.mem_append.mp hx with hx | hx
      · rw [List.eq_of_mem_replicate hx]; exact hh.le
      · rw [List.mem_singleton.mp hx]; exact r2.le) le_rfl
  have hlen : l.length = n + 2 := by rw [l2]; simp
  have heu : (euler durations garbage { d.q with ctrl := c0 } u t0 t1).2 = some (solutionAt l t0 p.integratorStep u) := by
    show Option.map (fun l => solutionAt l t0 d.q.integratorStep u)
      (trajectory (controlAt { d.q with ctrl := c0 } garbage) (durations (t1 - t0) d.q.integratorStep) t0 u) = _
    rw [qs, r1, l1]
    rfl
  have h3 := hi ⟨_, heu⟩
  rw [hint] at h3
  rw [← h3] at heu
  refine ⟨n, r, l, r2, r3, r4, l1, hlen, fun τ => ?_⟩
  rw [congrFun (Option.some.inj heu) τ, solutionAt, hlen]
  rfl

/-- The motion of a plan for person following, if there is a reference from the beginning on: the states of the integrated motion,
read at the nearest instant. -/
theorem planned_motion (hc : p.controller = .personFollowing) (hs : FixedStep durations) (hh : 0 < p.integratorStep)
    (hi : ∀ q u a b, q.controller = .personFollowing → (∃ f, (euler durations garbage q u a b).2 = some f) →
      integ q u a b = euler durations garbage q u a b)
    (hd : PlanOf p integ left right t0 t1 left' right' d) {c0 : Controllers ℝ} {u : UState ℝ}
    (hint : integ { d.q with ctrl := c0 } u t0 t1 = (d.q.ctrl, some d.sol))
    (hok : ∀ t, t0 ≤ t → ∃ r, c0.person.getDesiredPoint t = .ok r) :
    ∃ (n : Nat) (r : ℝ) (l : List (UState ℝ)), 0 < r ∧ r ≤ p.integratorStep ∧ n * p.integratorStep + r = t1 - t0 ∧
      trajectory (controlAt { d.q with ctrl := c0 } garbage) (List.replicate n p.integratorStep ++ [r]) t0 u = some l ∧
      l.length = n + 2 ∧
      ∀ τ, d.sol τ = l.getD (min (stdRound ((τ - t0) / p.integratorStep)).toNat (n + 1)) u := by
  have hq := hd.begins.eq
  have qc : d.q.controller = .personFollowing := by rw [hq]; exact hc
  exact integrated_motion hs hh hd (hi _ _ _ _ qc) hint fun t s ht => by
    obtain ⟨r, hr⟩ := hok t ht
    exact control_served (q := { d.q with ctrl := c0 }) qc garbage t s hr

/-- The sample read for a later time is a later one. -/
theorem sample_mono {h σ τ t0 : ℝ} (hh : 0 < h) (h0 : t0 ≤ σ) (h1 : σ ≤ τ) (n : Nat) :
    min (stdRound ((σ - t0) / h)).toNat n ≤ min (stdRound ((τ - t0) / h)).toNat n := by
  refine min_le_min_right _ (Int.toNat_le_toNat ?_)
  have a : 0 ≤ (σ - t0) / h := div_nonneg (by linarith) hh.le
  have b : (σ - t0) / h ≤ (τ - t0) / h := div_le_div_of_nonneg_right (by linarith) hh.le
  unfold stdRound
  rw [if_pos a, if_pos (a.trans b)]
  exact Int.floor_le_floor (by linarith)

/-- There is a desired point that is not in the future when a plan begins. -/
theorem reached_point (hc : p.controller = .personFollowing) (ht0 : 0 ≤ t0) {c0 : Controllers ℝ} {u : UState ℝ}
    (hu : InitialState p (leftFoot p left) (rightFoot p right) t0 left.steps.getLast? right.steps.getLast? u) {together : Bool}
    (hprep : Prepared p t0 (decide (¬ (left.steps = [] ∧ right.steps = []))) together u c0) :
    ∃ z ∈ c0.person.traj, z.initTime ≤ t0 := by
  obtain ⟨traj, tp, ts, hc0⟩ := hprep
  have hpt : c0.person.traj = traj := by rw [hc0]
  by_cases hne : left.steps = [] ∧ right.steps = []
  · have hem : ∀ a b, a = none → b = none → InitialState p (leftFoot p left) (rightFoot p right) t0 a b u → RestingState p t0 u := by
      intro a b ha hb h
      cases h with
      | empty _ h => exact h
      | together => cases ha
      | leftOlder => cases ha
      | rightOlder => cases ha
      | noLeft => cases hb
      | noRight => cases ha
    have hr := hem _ _ (by rw [hne.1]; rfl) (by rw [hne.2]; rfl) hu
    simp only [RestingState, hc] at hr
    obtain ⟨y, yDot, e, -⟩ := hr
    have hte : c0.person.traj = p.ctrl.person.traj := by
      rw [hpt]
      simpa [hne.1, hne.2] using ts
    rw [hte]
    unfold PersonCtrl.getDesiredPoint PersonCtrl.desiredPoint at e
    rw [if_neg (not_lt.mpr ht0)] at e
    cases htr : p.ctrl.person.traj with
    | nil => rw [htr] at e; cases e
    | cons first rest =>
      rw [htr] at e
      refine ⟨first, List.mem_cons_self, not_lt.mp fun hlt => ?_⟩
      simp only [if_pos hlt] at e
      cases e
  · refine ⟨⟨t0, p.ctrl.person.getPersonPosition u.position u.angle, 0⟩, ?_, le_rfl⟩
    rw [hpt]
    refine tp.symm.subset (List.mem_append_right _ ?_)
    rw [if_pos (decide_eq_true hne)]
    exact List.mem_cons_self

/-- The trajectory of the person-following controller is in the order of time when a plan begins. -/
theorem prepared_ordered {c0 : Controllers ℝ} {u : UState ℝ} {had together : Bool} (ho : InTimeOrder p.ctrl.person.traj)
    (hprep : Prepared p t0 had together u c0) : InTimeOrder c0.person.traj := by
  obtain ⟨traj, tp, ts, hc0⟩ := hprep
  have hpt : c0.person.traj = traj := by rw [hc0]
  rw [hpt]
  split_ifs at ts
  · exact ts
  · rw [ts]; exact ho

/-- The state of the unicycle at an optimised landing. -/
theorem landing_state (hp : Timed p) (hd : PlanOf p integ left right t0 t1 left' right' d) {e : Landing ℝ} (he : e ∈ d.log)
    (hk : e.kind = .optimised) : stateFor (if e.left then leftFoot p left else rightFoot p right) e.step = d.sol e.step.impactTime ∧
      t0 ≤ e.step.impactTime ∧ e.step.impactTime ≤ t1 := by
  obtain ⟨w, τ, hw, hstep, hopt⟩ := landings_on (f := fun w τ => t0 ≤ τ → τ ≤ t1 → w = d.sol τ) hp rfl
    ⟨t0 - 1, fun h => by linarith⟩ (fun τ _ _ _ _ => rfl) hd e he
  obtain ⟨rfl, a, b⟩ := hopt hk
  obtain ⟨f1, f2, -, -⟩ := foot_eq hd
  refine ⟨?_, a, b⟩
  rw [← hw a b]
  have : ∀ s, stateFor (if e.left then leftFoot p left else rightFoot p right) s = stateFor (if e.left then d.left else d.right) s := by
    intro s
    cases e.left
    · exact (f2 s).symm
    · exact (f1 s).symm
  rw [this, hstep, state_step]

end Planner
end Uni
