import Verif.Spec.Line
import Verif.Props.Stop

/-! # C126: told the same over and over again, the robot walks along one line -/

set_option autoImplicit false
set_option linter.unusedSectionVars false

namespace Uni
open Spec Gen

namespace Planner
variable {p p' : Planner ℝ} {integ : Integrator ℝ} {fuel : Nat} {left right left' right' : FootPrint ℝ} {t0 t1 : ℝ} {cmd : Control ℝ}
  {u : UState ℝ}

theorem beside_same {p q : Planner ℝ} (h : SameStance p q) {f : Bool} {s : Step ℝ} : BesideWay q u cmd f s ↔ BesideWay p u cmd f s := by
  obtain ⟨h1, h2, h3⟩ := h
  unfold BesideWay poseOf leftFoot rightFoot
  rw [h1, h2, h3]
  cases f <;> exact Iff.rfl

theorem beside_place {f : Bool} {s s' : Step ℝ} (h : s'.position = s.position ∧ s'.angle = s.angle) :
    BesideWay p u cmd f s' ↔ BesideWay p u cmd f s := by
  unfold BesideWay poseOf stateFor
  rw [h.1, h.2]

/-- A planner with a command had it before it planned. -/
theorem command_before (hi : Integrates integ) (h : p.computeNewSteps integ fuel left right t0 t1 = .done true p' left' right')
    (ht : ToldTo cmd p') : ToldTo cmd p ∧ SameStance p p' := by
  have hsame := computeNewSteps_keep p integ fuel left right t0 t1 p' (by rw [h]; rfl)
  have hpc : p.controller = .direct := by
    have := ht.controller
    unfold SameConfig at hsame; rw [hsame] at this; exact this
  obtain ⟨-, k1, k2⟩ := direct_after hi hpc h
  obtain ⟨l1, l2⟩ := limits_same hsame
  obtain ⟨c1, c2, c3, c4, a1, a2, a3, a4, a5, a6, a7, a8⟩ := ht
  refine ⟨?_, stance_same hsame⟩
  have e1 : p'.ctrl.directBase.turnGain = p.ctrl.directBase.turnGain := by rw [k2]; rfl
  have e2 : p'.ctrl.directBase.backFactor = p.ctrl.directBase.backFactor := by rw [k2]; rfl
  have e3 : p'.ctrl.directBase.sideFactor = p.ctrl.directBase.sideFactor := by rw [k2]; rfl
  have m2 : p'.minTime = p.minTime := by unfold SameConfig at hsame; rw [hsame]
  have m5 : p'.integratorStep = p.integratorStep := by unfold SameConfig at hsame; rw [hsame]
  rw [l1] at a1 a6 a7 a8
  rw [e1] at a2 a6 a7
  rw [e2] at a3 a7
  rw [e3] at a4 a8
  rw [l2] at a5
  exact ⟨hpc, k1 ▸ c2, m2 ▸ c3, m5 ▸ c4, a1, a2, a3, a4, a5, a6, a7, a8⟩

/-- It keeps it. -/
theorem command_after (hi : Integrates integ) (h : p.computeNewSteps integ fuel left right t0 t1 = .done true p' left' right')
    (ht : ToldTo cmd p) : ToldTo cmd p' := by
  obtain ⟨hsame, k1, k2⟩ := direct_after hi ht.controller h
  obtain ⟨l1, l2⟩ := limits_same hsame
  obtain ⟨c1, c2, c3, c4, a1, a2, a3, a4, a5, a6, a7, a8⟩ := ht
  have e1 : p'.ctrl.directBase.turnGain = p.ctrl.directBase.turnGain := by rw [k2]; rfl
  have e2 : p'.ctrl.directBase.backFactor = p.ctrl.directBase.backFactor := by rw [k2]; rfl
  have e3 : p'.ctrl.directBase.sideFactor = p.ctrl.directBase.sideFactor := by rw [k2]; rfl
  have m1 : p'.controller = p.controller := by unfold SameConfig at hsame; rw [hsame]
  have m2 : p'.minTime = p.minTime := by unfold SameConfig at hsame; rw [hsame]
  have m5 : p'.integratorStep = p.integratorStep := by unfold SameConfig at hsame; rw [hsame]
  rw [← l1] at a1 a6 a7 a8
  rw [← e1] at a2 a6 a7
  rw [← e2] at a3 a7
  rw [← e3] at a4 a8
  rw [← l2] at a5
  exact ⟨m1.trans c1, k1.trans c2, m2 ▸ c3, m5 ▸ c4, a1, a2, a3, a4, a5, a6, a7, a8⟩

/-- A single plan. -/
theorem line_plan (hp : Timed p) (hi : Integrates integ) (ht : ToldTo cmd p) (hc : Unswerving cmd) {a b : Step ℝ} (hl : left.steps = [a])
    (hr : right.steps = [b]) (ha : 0 ≤ a.impactTime) (hb : 0 ≤ b.impactTime) (ha' : BesideWay p u cmd true a) (hb' : BesideWay p u cmd false b)
    (h : p.computeNewSteps integ fuel left right t0 t1 = .done true p' left' right') :
    (∀ s ∈ left'.steps, BesideWay p u cmd true s) ∧ ∀ s ∈ right'.steps, BesideWay p u cmd false s := by
  obtain ⟨durations, garbage, hs, hi⟩ := hi
  obtain ⟨d, v, hd, hv, k⟩ := C99_landings hp (by intro s hs; rw [hl] at hs; simp at hs; rw [hs]; exact ha)
    (by intro s hs; rw [hr] at hs; simp at hs; rw [hs]; exact hb) ht.controller (by rw [ht.command]; exact hc.2)
    (by rw [ht.command]; exact ht.limits) (.inl (by rw [ht.command]; exact hc.1)) hs ht.integratorStep hi h
  rw [ht.command] at k
  obtain ⟨s1, s2⟩ : d.l0 = left ∧ d.r0 = right := by
    rcases hd.begins.steps with ⟨-, s1, s2⟩ | ⟨n, -⟩
    · exact ⟨s1, s2⟩
    · rw [hl] at n; cases n
  -- the initial state is on the line
  obtain ⟨r0, hr0, hv'⟩ : ∃ r, 0 ≤ r ∧ v = goOn u cmd r := by
    obtain ⟨x, x1, x2⟩ := ha'
    obtain ⟨y, y1, y2⟩ := hb'
    have x2 : stateFor (leftFoot p left) a = goOn u cmd x := x2
    have y2 : stateFor (rightFoot p right) b = goOn u cmd y := y2
    rw [hl, hr] at hv
    cases hv with
    | together _ _ _ =>
      split_ifs
      · exact ⟨y, y1, y2⟩
      · exact ⟨x, x1, x2⟩
    | leftOlder _ _ _ => exact ⟨y, y1, y2⟩
    | rightOlder _ _ _ => exact ⟨x, x1, x2⟩
  have hland : ∀ e ∈ d.log, BesideWay p u cmd e.left e.step := by
    intro e he
    obtain ⟨s, h0, h1, -⟩ := k e he
    refine ⟨r0 + s, add_nonneg hr0 h0, ?_⟩
    rw [← goOn_add hc.2, ← hv', h1]
    cases e.left
    · exact state_step (rightFoot p right) _ _
    · exact state_step (leftFoot p left) _ _
  have hsteps : ∀ f, ∀ s ∈ stepsOf f d.log, BesideWay p u cmd f s := by
    intro f s hs
    unfold stepsOf at hs
    simp only [List.mem_map, List.mem_filter] at hs
    obtain ⟨e, ⟨e1, e2⟩, rfl⟩ := hs
    have := hland e e1
    rwa [eq_of_beq e2] at this
  rcases hd.effect with ⟨-, e1, e2⟩ | ⟨-, l, r, hl', hr', hre⟩
  · rw [e1, e2, s1, s2]
    refine ⟨fun s hs => ?_, fun s hs => ?_⟩
    · rw [extendBy, hl] at hs
      rcases List.mem_append.mp hs with hs | hs
      · rw [List.mem_singleton.mp hs]; exact ha'
      · exact hsteps _ _ hs
    · rw [extendBy, hr] at hs
      rcases List.mem_append.mp hs with hs | hs
      · rw [List.mem_singleton.mp hs]; exact hb'
      · exact hsteps _ _ hs
  · have retimed : ∀ (f : Bool) (fp fp' : FootPrint ℝ) (c : Step ℝ) (t : ℝ), fp.steps = [c] → Retimed fp t fp' → BesideWay p u cmd f c →
        ∀ s ∈ fp'.steps, BesideWay p u cmd f s := by
      rintro f fp fp' c t hc ⟨older, s, e, rfl⟩ hbe
      rw [hc] at e
      cases older with
      | nil =>
        simp at e; subst e
        intro s hs
        simp at hs; rw [hs]
        exact (beside_place (by exact ⟨rfl, rfl⟩)).mpr hbe
      | cons => simp at e
    have k1 : ∀ s ∈ left.steps, BesideWay p u cmd true s := by rw [hl]; simpa using ha'
    have k2 : ∀ s ∈ right.steps, BesideWay p u cmd false s := by rw [hr]; simpa using hb'
    rw [s1, s2] at hre
    rcases hre with ⟨-, rfl, rfl⟩ | ⟨-, rfl, hre⟩ | ⟨-, hre, rfl⟩
    · exact ⟨k1, k2⟩
    · exact ⟨k1, retimed _ _ _ _ _ hr hre hb'⟩
    · exact ⟨retimed _ _ _ _ _ hl hre ha', k2⟩

/-! ## Later contacts are not behind earlier ones -/

theorem behind_trans (hc : Plain cmd) {f g k : Bool} {x y z : Step ℝ} (h1 : NotBehind p cmd f g x y) (h2 : NotBehind p cmd g k y z) :
    NotBehind p cmd f k x z := by
  obtain ⟨a, a0, a1⟩ := h1
  obtain ⟨b, b0, b1⟩ := h2
  exact ⟨a + b, add_nonneg a0 b0, by rw [← goOn_add hc, ← a1, ← b1]⟩

theorem behind_refl (f : Bool) (x : Step ℝ) : NotBehind p cmd f f x x := ⟨0, le_rfl, (goOn_zero _ _).symm⟩

theorem behind_place {f g : Bool} {x y x' y' : Step ℝ} (h1 : x'.position = x.position ∧ x'.angle = x.angle)
    (h2 : y'.position = y.position ∧ y'.angle = y.angle) : NotBehind p cmd f g x' y' ↔ NotBehind p cmd f g x y := by
  unfold NotBehind poseOf stateFor
  rw [h1.1, h1.2, h2.1, h2.2]

theorem pose_same {p q : Planner ℝ} (h : SameStance p q) (f : Bool) (s : Step ℝ) : poseOf q f s = poseOf p f s := by
  obtain ⟨h1, h2, h3⟩ := h
  unfold poseOf leftFoot rightFoot
  rw [h1, h2, h3]
  cases f <;> rfl

theorem behind_same {p q : Planner ℝ} (h : SameStance p q) {f g : Bool} {x y : Step ℝ} : NotBehind q cmd f g x y ↔ NotBehind p cmd f g x y := by
  unfold NotBehind
  rw [pose_same h, pose_same h]

/-- A chain of landings, each not behind the one before. -/
theorem chain_behind (hc : Plain cmd) : ∀ {log : List (Landing ℝ)} {b : Bool} {prev : Step ℝ}, Alternates b log →
    Along (fun s e => NotBehind p cmd (!e.left) e.left s e.step) prev log →
      (∀ e ∈ log, NotBehind p cmd (!b) e.left prev e.step) ∧ log.Pairwise fun x y => NotBehind p cmd x.left y.left x.step y.step
  | [], _, _, _, _ => ⟨by simp, .nil⟩
  | e :: es, b, prev, ha, h => by
    obtain ⟨h1, h2⟩ := chain_behind hc ha.2 h.2
    have hb : e.left = b := ha.1
    have h0 : NotBehind p cmd (!b) e.left prev e.step := by
      have h1 : NotBehind p cmd (!e.left) e.left prev e.step := h.1
      rwa [hb] at h1 ⊢
    rw [Bool.not_not, ← hb] at h1
    refine ⟨fun x hx => ?_, .cons h1 h2⟩
    rcases List.mem_cons.mp hx with rfl | hx
    · exact h0
    · exact behind_trans hc h0 (h1 x hx)

/-- The landings of a plan, each not behind the one before. -/
theorem landings_ahead (hp : Timed p) (hi : Integrates integ) (ht : ToldTo cmd p) (hc : Unswerving cmd) {d : Plan ℝ}
    (hd : PlanOf p integ left right t0 t1 left' right' d) : Along (fun s e => NotBehind p cmd (!e.left) e.left s e.step) d.prev d.log := by
  obtain ⟨durations, garbage, hs, hi⟩ := hi
  obtain ⟨u, hu, σ, hmono, hsol⟩ := constant_progress ht.controller (by rw [ht.command]; exact hc.2) (by rw [ht.command]; exact ht.limits) hs
    ht.integratorStep hi hd
  rw [ht.command] at hsol
  have hbase := start_base ht.controller (.inl (by rw [ht.command]; exact hc.1)) hd hu
  have hlt := hd.begins.lt
  have hq := hd.begins.eq
  have eL : ∀ s, stateFor d.left s = poseOf p true s := by
    intro s
    show stateFor (leftFoot d.q d.l0) s = _
    rw [hq]; rfl
  have eR : ∀ s, stateFor d.right s = poseOf p false s := by
    intro s
    show stateFor (rightFoot d.q d.r0) s = _
    rw [hq]; rfl
  have eF : ∀ (f : Bool) (s : Step ℝ), stateFor (if f then d.left else d.right) s = poseOf p f s := by
    intro f s; cases f
    · exact eR s
    · exact eL s
  have eF' : ∀ (f : Bool) (s : Step ℝ), stateFor (if f then d.right else d.left) s = poseOf p (!f) s := by
    intro f s; cases f
    · exact eL s
    · exact eR s
  set I : Stance ℝ → Prop := fun c => 0 ≤ c.offset ∧ c.prev.impactTime ≤ t1 ∧
    ∃ s, 0 ≤ s ∧ s ≤ σ (max t0 c.prev.impactTime) ∧ poseOf p (!c.left) c.prev = goOn u cmd s with hI
  have key : ∀ (c : Stance ℝ) (e : Landing ℝ), I c → Decided d.q d.sol d.left d.right c e →
      NotBehind p cmd (!e.left) e.left c.prev e.step ∧ I (c.next d.q e.step) := by
    rintro c e ⟨i0, i1, s, s0, s1, s2⟩ he
    obtain ⟨a1, -, a3, a4, a5⟩ := decided_facts he
    rw [hd.initTime] at a4
    rw [hd.endTime] at a5
    rw [hd.minTime] at a3
    have a4 : t0 ≤ e.step.impactTime := by linarith
    have hle : max t0 c.prev.impactTime ≤ e.step.impactTime := max_le a4 (by linarith [ht.minTime])
    have hσ := hmono _ _ (le_max_left t0 c.prev.impactTime) hle a5
    obtain ⟨r, r0, r1, r2⟩ : ∃ r, s ≤ r ∧ r ≤ σ e.step.impactTime ∧ poseOf p e.left e.step = goOn u cmd r := by
      cases he with
      | optimised n m h =>
        refine ⟨_, s1.trans hσ, le_rfl, ?_⟩
        simp only at a4 a5 ⊢
        rw [← eF, state_step]
        exact (hsol _ a4 a5).2.1
      | parallel n h =>
        refine ⟨s, le_rfl, s1.trans hσ, ?_⟩
        simp only
        rw [← eF, state_step, eF', s2]
    refine ⟨⟨r - s, sub_nonneg.mpr r0, ?_⟩, le_refl _, a5, r, s0.trans r0, ?_, ?_⟩
    · rw [r2, a1, s2, goOn_add hc.2]; congr 1; ring
    · show r ≤ σ (max t0 e.step.impactTime)
      rw [max_eq_right a4]; exact r1
    · show poseOf p (!!c.left) e.step = _
      rw [Bool.not_not, ← a1, r2]
  have i0 : I d.start := by
    refine ⟨?_, hd.begins.prevTime.trans hlt.le, 0, le_rfl, ?_, ?_⟩
    · show 0 ≤ (if d.q.firstStep then d.q.nominalTime else 0)
      split_ifs
      · rw [hd.nominalTime]; exact hp.nominal_nonneg
      · exact le_refl _
    · show 0 ≤ σ (max t0 d.prev.impactTime)
      rw [max_eq_left hd.begins.prevTime]
      exact (hsol t0 le_rfl hlt.le).1
    · rw [goOn_zero, ← hbase]
      exact (eF' _ _).symm
  obtain ⟨r1, -, f1, s, s0, s1, s2⟩ := run_situations (p := d.q) (P := fun c e => NotBehind p cmd (!e.left) e.left c.prev e.step)
    (fun c e h1 h2 => (key c e h1 h2).2) (fun c e h1 h2 => (key c e h1 h2).1) hd.run i0
  refine run_along_append hd.run ?_ (Situations.along (p := d.q) r1)
  have hter := hd.terminal
  split_ifs at hter with hadd
  · have e1 := (hsol t1 hlt.le le_rfl).2.1
    have hσ := s1.trans (hmono _ _ (le_max_left _ _) (max_le hlt.le f1) le_rfl)
    generalize d.terminal = T at hter
    cases hter with
    | both h =>
      refine ⟨⟨σ t1 - s, sub_nonneg.mpr hσ, ?_⟩, ⟨0, le_rfl, ?_⟩, trivial⟩
      · simp only
        rw [← eF, state_step, s2, goOn_add hc.2, e1]; congr 1; ring
      · simp only
        rw [goOn_zero, Bool.not_not, ← eF d.final.left, state_step, ← eF', state_step]
    | close h h' =>
      refine ⟨⟨0, le_rfl, ?_⟩, trivial⟩
      simp only
      rw [← eF, state_step, eF', goOn_zero]
    | skip h h' => trivial
  · rw [hter]; trivial

/-- The contacts after a plan that has steps. -/
theorem advance_plan (hp : Timed p) (hi : Integrates integ) (ht : ToldTo cmd p) (hc : Unswerving cmd) {a b : Step ℝ} {d : Plan ℝ}
    (hl : left.steps = [a]) (hr : right.steps = [b]) (h0 : Advances p cmd [a] [b]) (hd : PlanOf p integ left right t0 t1 left' right' d)
    (hne : d.log ≠ []) : Advances p cmd left'.steps right'.steps := by
  obtain ⟨s1, s2⟩ : d.l0 = left ∧ d.r0 = right := by
    rcases hd.begins.steps with ⟨-, s1, s2⟩ | ⟨n, -⟩
    · exact ⟨s1, s2⟩
    · rw [hl] at n; cases n
  obtain ⟨c1, c2⟩ := chain_behind hc.2 hd.alternates (landings_ahead hp hi ht hc hd)
  obtain ⟨g1, g2⟩ := along_times ht.minTime.le (hd.gaps hp)
  have hmax := hd.prev_latest (l := a) (r := b) (by rw [hl]; rfl) (by rw [hr]; rfl)
  have hlast := hd.begins.last
  rw [s1, s2] at hlast
  -- the first contacts
  have hprev : d.prev ∈ (if (!d.firstLeft) then [a] else [b]) := by
    unfold Plan.firstLeft
    cases hsw : d.q.swingLeft <;> rw [hsw] at hlast <;> simp [hl, hr] at hlast ⊢ <;> exact hlast.symm
  have hheads : ∀ f : Bool, ∀ x ∈ (if f then [a] else [b]), x.impactTime ≤ d.prev.impactTime ∧ NotBehind p cmd f (!d.firstLeft) x d.prev := by
    intro f x hx
    have : x.impactTime ≤ d.prev.impactTime := by
      rw [hmax]
      cases f <;> simp at hx <;> rw [hx]
      · exact le_max_right _ _
      · exact le_max_left _ _
    exact ⟨this, h0 _ _ _ hx _ hprev this⟩
  rcases hd.effect with ⟨-, e1, e2⟩ | ⟨e, -⟩
  swap
  · exact absurd e hne
  have split : ∀ f : Bool, ∀ x ∈ (if f then left'.steps else right'.steps), x ∈ (if f then [a] else [b]) ∨ ∃ e ∈ d.log, e.left = f ∧ e.step = x := by
    intro f x hx
    cases f
    · simp only [Bool.false_eq_true, if_false, e2, s2, extendBy, hr] at hx ⊢
      exact (List.mem_append.mp hx).imp_right mem_stepsOf
    · simp only [if_true, e1, s1, extendBy, hl] at hx ⊢
      exact (List.mem_append.mp hx).imp_right mem_stepsOf
  intro f g x hx y hy hxy
  have hm := ht.minTime
  rcases split f x hx with hx | ⟨e, he, rfl, rfl⟩
  · rcases split g y hy with hy | ⟨e', he', rfl, rfl⟩
    · exact h0 _ _ _ hx _ hy hxy
    · exact behind_trans hc.2 (hheads f x hx).2 (c1 e' he')
  · rcases split g y hy with hy | ⟨e', he', rfl, rfl⟩
    · have := (hheads g y hy).1
      have := g1 e he
      linarith
    · obtain ⟨i, hi', rfl⟩ := List.getElem_of_mem he
      obtain ⟨j, hj', rfl⟩ := List.getElem_of_mem he'
      rcases Nat.lt_trichotomy i j with hij | rfl | hij
      · exact List.pairwise_iff_getElem.mp c2 i j hi' hj' hij
      · exact behind_refl _ _
      · have := List.pairwise_iff_getElem.mp g2 j i hj' hi' hij
        linarith

theorem side_advances {a b : Step ℝ} (h : SideBySide p a b) : Advances p cmd [a] [b] := by
  have hp : poseOf p true a = poseOf p false b := h
  have key : ∀ f : Bool, ∀ x ∈ (if f then [a] else [b]), poseOf p f x = poseOf p true a := by
    intro f x hx
    cases f <;> simp at hx <;> rw [hx]
    exact hp.symm
  intro f g x hx y hy _
  exact ⟨0, le_rfl, by rw [goOn_zero, key f x hx, key g y hy]⟩

/-- C126: a robot told to go straight forward or backward, whose feet are in order, walks up to the end of the horizon, and its feet stay in
order: so it does in the next plan, and so on. -/
theorem C126_walks {v : ℝ} (hp : Timed p) (hd : Driven p ⟨v, 0, 0⟩) (hv : v ≠ 0) (hmin : 0 < p.minTime)
    (hf : StraightFits p ⟨v, 0, 0⟩ (max p.minTime (p.minLength / |v|) + p.dT + 3 * p.integratorStep)) (hi : Integrates integ) {a b : Step ℝ}
    (hl : left.steps = [a]) (hr : right.steps = [b]) (ha : 0 ≤ a.impactTime) (hb : 0 ≤ b.impactTime) (h0 : Advances p ⟨v, 0, 0⟩ [a] [b])
    (hlong : ∀ first, (a.impactTime = b.impactTime → first = true) → t0 + p.nominalTime + p.dT + waits p (p.minLength / |v|) (executedFrom p t0 true first) t0 t0 < t1)
    (h : p.computeNewSteps integ fuel left right t0 t1 = .done true p' left' right') :
    ∃ d, PlanOf p integ left right t0 t1 left' right' d ∧
      KeepsWalking p (p.minLength / |v|) (executedFrom p t0 true d.q.firstStep) t0 t1 d ∧ d.decided ≠ [] ∧
      Advances p ⟨v, 0, 0⟩ left'.steps right'.steps := by
  have hsp : speedOf ⟨v, 0, 0⟩ = |v| := by
    simp only [speedOf]
    rw [show v ^ 2 + 0 ^ 2 = v ^ 2 by ring, Real.sqrt_sq_eq_abs]
  have ht : ToldTo ⟨v, 0, 0⟩ p := ⟨hd.controller, hd.command, hmin, hd.step, hd.limits⟩
  have hc : Unswerving (⟨v, 0, 0⟩ : Control ℝ) := ⟨rfl, .inl rfl⟩
  have hne : ¬ (left.steps = [] ∧ right.steps = []) := by rw [hl]; simp
  have hi' := hi
  obtain ⟨durations, garbage, hs, hi⟩ := hi
  obtain ⟨d, u, start, k1, k2, k3, k4⟩ := C122_walks (cmd := ⟨v, 0, 0⟩) hp (by intro s hs; rw [hl] at hs; simp at hs; rw [hs]; exact ha)
    (by intro s hs; rw [hr] at hs; simp at hs; rw [hs]; exact hb) hd rfl (by rw [hsp]; exact abs_pos.mpr hv)
    (by rw [if_neg hne, hsp]; exact hf) (.inl rfl) hs hi h
  rw [hsp, k3] at k4
  simp only [hne, not_false_eq_true, decide_true] at k4
  have hwalk := k4 (by
    have ab : a.impactTime ≤ b.impactTime → ∃ s, s ≤ 0 ∧ poseOf p true a = goOn (poseOf p false b) ⟨v, 0, 0⟩ s := by
      intro hab
      obtain ⟨s, s0, s1⟩ := h0 true false a (by simp) b (by simp) hab
      refine ⟨-s, by linarith, ?_⟩
      rw [s1, goOn_add hc.2, add_neg_cancel, goOn_zero]
    have ba : b.impactTime ≤ a.impactTime → ∃ s, s ≤ 0 ∧ poseOf p false b = goOn (poseOf p true a) ⟨v, 0, 0⟩ s := by
      intro hab
      obtain ⟨s, s0, s1⟩ := h0 false true b (by simp) a (by simp) hab
      refine ⟨-s, by linarith, ?_⟩
      rw [s1, goOn_add hc.2, add_neg_cancel, goOn_zero]
    have key : (∃ s, s ≤ 0 ∧ poseOf p true a = goOn u ⟨v, 0, 0⟩ s) ∧ ∃ s, s ≤ 0 ∧ poseOf p false b = goOn u ⟨v, 0, 0⟩ s := by
      rw [hl, hr] at k2
      cases k2 with
      | together _ _ he =>
        split_ifs
        · exact ⟨ab he.le, 0, le_rfl, (goOn_zero _ _).symm⟩
        · exact ⟨⟨0, le_rfl, (goOn_zero _ _).symm⟩, ba he.ge⟩
      | leftOlder _ _ he => exact ⟨ab he.le, 0, le_rfl, (goOn_zero _ _).symm⟩
      | rightOlder _ _ he => exact ⟨⟨0, le_rfl, (goOn_zero _ _).symm⟩, ba he.le⟩
    refine ⟨fun l h => ?_, fun r h => ?_⟩
    · rw [hl] at h; cases h; exact key.1
    · rw [hr] at h; cases h; exact key.2)
  have hdec : d.decided ≠ [] := by
    intro hnil
    have a3 := hwalk.2.2
    have hrun := k1.run
    have hprev : d.final.prev.impactTime ≤ t0 := by
      have hb := k1.begins.prevTime
      rw [hnil] at hrun
      generalize hst : d.start = c at hrun
      generalize d.final = c' at hrun ⊢
      cases hrun with
      | stop _ _ => rw [← hst]; exact hb
    have hl' := hlong d.q.firstStep fun e => k1.starts_together (.inr ⟨a, b, by rw [hl]; rfl, by rw [hr]; rfl, e⟩)
    have hE : t0 ≤ executedFrom p t0 true d.q.firstStep := le_max_left _ _
    simp only [waits, max_self, max_eq_left hprev, max_eq_left hE, max_eq_left (hprev.trans hE)] at a3 hl'
    linarith
  refine ⟨d, k1, hwalk, hdec, advance_plan hp hi' ht hc hl hr h0 k1 fun hnil => hdec ?_⟩
  exact (List.append_eq_nil_iff.mp hnil).1

/-- The poses of the landings of a plan. -/
theorem landings_of (hp : Timed p) (hi : Integrates integ) (ht : ToldTo cmd p) (hc : Unswerving cmd) {d : Plan ℝ}
    (hd : PlanOf p integ left right t0 t1 left' right' d) :
    ∃ u, InitialState p (leftFoot p left) (rightFoot p right) t0 left.steps.getLast? right.steps.getLast? u ∧
      ∀ e ∈ d.log, ∃ s, 0 ≤ s ∧ poseOf p e.left e.step = goOn u cmd s ∧
        (e.kind = .optimised → |s - max 0 (e.step.impactTime - executedFrom p t0 (decide (¬ (left.steps = [] ∧ right.steps = [])))
          d.q.firstStep)| ≤ 3 / 2 * p.integratorStep) := by
  obtain ⟨durations, garbage, hs, hi⟩ := hi
  obtain ⟨u, hu, hm⟩ := C99_motion ht.controller (by rw [ht.command]; exact hc.2) (by rw [ht.command]; exact ht.limits) hs ht.integratorStep hi hd
  rw [ht.command] at hm
  refine ⟨u, hu, fun e he => ?_⟩
  obtain ⟨w, τ, ⟨s, s0, hw, hb⟩, hstep, hopt⟩ := landings_on (f := fun w τ => ∃ s, 0 ≤ s ∧ w = goOn u cmd s ∧
      (t0 ≤ τ → τ ≤ t1 → |s - max 0 (τ - executedFrom p t0 (decide (¬ (left.steps = [] ∧ right.steps = []))) d.q.firstStep)| ≤
        3 / 2 * p.integratorStep)) hp (start_base ht.controller (.inl (by rw [ht.command]; exact hc.1)) hd hu)
    ⟨t0 - 1, 0, le_rfl, (goOn_zero u _).symm, fun h => by linarith⟩ (fun τ a b => by
      obtain ⟨s, h1, h2, h3⟩ := hm τ a b
      exact ⟨s, h1, h2, fun _ _ => h3⟩) hd e he
  obtain ⟨-, -, f3, f4⟩ := foot_eq hd
  refine ⟨s, s0, ?_, fun hk => ?_⟩
  · rw [hstep]
    unfold poseOf
    cases e.left <;> simp only [Bool.false_eq_true, if_false, if_true, f3, f4]
    · rw [hw]; exact state_step (rightFoot p right) _ _
    · rw [hw]; exact state_step (leftFoot p left) _ _
  · obtain ⟨rfl, a, b⟩ := hopt hk
    exact hb a b

private theorem run_last {q : Planner ℝ} {sol : ℝ → UState ℝ} {L R : Foot ℝ} : ∀ {log : List (Landing ℝ)} {c c' : Stance ℝ} {e : Landing ℝ},
    Run q sol L R c (log ++ [e]) c' → c'.prev = e.step
  | [], _, _, _, .land _ _ _ _ _ (.stop _ _) => rfl
  | _ :: _, _, _, _, .land _ _ _ _ _ h => run_last h

private theorem along_last {P : Step ℝ → Landing ℝ → Prop} : ∀ {log : List (Landing ℝ)} {prev : Step ℝ} {x e : Landing ℝ},
    Along P prev (log ++ [x, e]) → P x.step e
  | [], _, _, _, h => h.2.1
  | _ :: _, _, _, _, h => along_last h.2

/-- C126: how far a robot gets in one plan that is told to go straight forward or backward: up to the end of the horizon, except for the
maximum duration of a step, the time in which the foot gets some way to go, and small periods. -/
theorem C126_progress {v : ℝ} (hp : Timed p) (hd : Driven p ⟨v, 0, 0⟩) (hv : v ≠ 0) (hmin : 0 < p.minTime) (hrise : 0 ≤ p.minLength)
    (hf : StraightFits p ⟨v, 0, 0⟩ (max p.minTime (p.minLength / |v|) + p.dT + 3 * p.integratorStep)) (hi : Integrates integ) {a b : Step ℝ}
    (hl : left.steps = [a]) (hr : right.steps = [b]) (ha : 0 ≤ a.impactTime) (hb : 0 ≤ b.impactTime) (h0 : Advances p ⟨v, 0, 0⟩ [a] [b])
    {start : ℝ} (hstart : ∀ first, (a.impactTime = b.impactTime → first = true) → executedFrom p t0 true first ≤ start)
    (hlong : start + p.maxTime + p.dT + (p.minLength / |v| + 3 * p.integratorStep) < t1)
    (h : p.computeNewSteps integ fuel left right t0 t1 = .done true p' left' right') :
    ∃ u, InitialState p (leftFoot p left) (rightFoot p right) t0 (some a) (some b) u ∧
      ∃ f : Bool, ∃ x ∈ (if f then left'.steps else right'.steps), ∃ s, poseOf p f x = goOn u ⟨v, 0, 0⟩ s ∧
        t1 - start - p.maxTime - p.dT - p.minLength / |v| - 9 / 2 * p.integratorStep ≤ s ∧
        ∀ g : Bool, ∀ y ∈ (if g then left'.steps else right'.steps), x.impactTime ≤ y.impactTime → NotBehind p ⟨v, 0, 0⟩ f g x y := by
  have hnm := hp.nominal
  have hh := hd.step
  have hq : 0 ≤ p.minLength / |v| := by positivity
  have hnom : p.nominalTime ≤ p.maxTime := by linarith [hd.slow, hd.period]
  have hE : ∀ first, t0 ≤ executedFrom p t0 true first := fun _ => le_max_left _ _
  obtain ⟨d, k1, kw, hdec, hadv⟩ := C126_walks hp hd hv hmin hf hi hl hr ha hb h0 (fun first hfirst => by
    have := hstart first hfirst
    have := hE first
    simp only [waits, max_self, max_eq_left (hE first)]
    rw [max_eq_right (by linarith)]
    linarith) h
  have ht : ToldTo ⟨v, 0, 0⟩ p := ⟨hd.controller, hd.command, hmin, hd.step, hd.limits⟩
  have hc : Unswerving (⟨v, 0, 0⟩ : Control ℝ) := ⟨rfl, .inl rfl⟩
  obtain ⟨u, hu, hland⟩ := landings_of hp hi ht hc k1
  have hne : ¬ (left.steps = [] ∧ right.steps = []) := by rw [hl]; simp
  simp only [hne, not_false_eq_true, decide_true] at hland
  have hst := hstart d.q.firstStep fun e => k1.starts_together (.inr ⟨a, b, by rw [hl]; rfl, by rw [hr]; rfl, e⟩)
  have hEd := hE d.q.firstStep
  generalize executedFrom p t0 true d.q.firstStep = E at *
  -- the time between landings
  have wait : ∀ {x m : ℝ}, 0 ≤ m → m ≤ p.maxTime → t1 ≤ max t0 x + m + p.dT + waits p (p.minLength / |v|) E t0 x →
      t1 ≤ x + m + p.dT + p.minLength / |v| + 3 * p.integratorStep := by
    intro x m m0 m1 hx
    simp only [waits] at hx
    rcases le_total E x with he | he
    · rw [max_eq_right he, max_eq_right (hEd.trans he), max_eq_right (by linarith)] at hx
      linarith
    · have hmx : max t0 x ≤ E := max_le hEd he
      rw [max_eq_left he] at hx
      generalize max t0 x = y at hx hmx
      rw [max_eq_right (by linarith)] at hx
      linarith
  -- a landing chosen by the optimisation, late
  obtain ⟨e, he, hk, hlate⟩ : ∃ e ∈ d.decided, e.kind = .optimised ∧
      t1 ≤ e.step.impactTime + p.maxTime + p.dT + p.minLength / |v| + 3 * p.integratorStep := by
    obtain ⟨log, e, hlog⟩ : ∃ log e, d.decided = log ++ [e] := by
      rcases List.eq_nil_or_concat d.decided with hn | ⟨log, e, hn⟩
      · exact absurd hn hdec
      · exact ⟨log, e, by rw [hn, List.concat_eq_append]⟩
    obtain ⟨w1, w2, w3⟩ := kw
    have hlast : d.final.prev = e.step := by
      have := k1.run
      rw [hlog] at this
      exact run_last this
    rcases w1 e (by rw [hlog]; simp) with hk | ⟨-, hk⟩
    · refine ⟨e, by rw [hlog]; simp, hk, ?_⟩
      rw [hlast] at w3
      linarith [wait hp.nominal_nonneg hnom w3]
    · rcases List.eq_nil_or_concat log with hn | ⟨log', x, hn⟩
      · subst hn
        rw [hlog] at w2
        have w2' := w2.1
        simp only [hk] at w2'
        have := wait (hp.nominal_nonneg.trans hnom) le_rfl w2'
        linarith [k1.begins.prevTime]
      · rw [List.concat_eq_append] at hn
        subst hn
        rw [List.append_assoc] at hlog
        rw [hlog] at w2
        have w2' := along_last w2
        simp only [hk] at w2'
        have hx : x ∈ d.decided := by rw [hlog]; simp
        rcases w1 x hx with hk' | ⟨-, hk'⟩
        · exact ⟨x, hx, hk', wait (hp.nominal_nonneg.trans hnom) le_rfl w2'⟩
        · exfalso
          have hg := (along_times hp.minTime (k1.gaps hp)).2
          have : d.log = log' ++ [x, e] ++ d.terminal := by rw [Plan.log, hlog]; rfl
          rw [this, List.pairwise_append] at hg
          have hg := (List.pairwise_append.mp hg.1).2.1
          simp at hg
          linarith
  have hmem : e ∈ d.log := List.mem_append_left _ he
  obtain ⟨s, s0, hs, hb'⟩ := hland e hmem
  have hin : e.step ∈ (if e.left then left'.steps else right'.steps) := by
    rcases k1.effect with ⟨-, e1, e2⟩ | ⟨hn, -⟩
    · cases hx : e.left
      · simp only [Bool.false_eq_true, if_false]
        rw [e2]
        exact List.mem_append_right _ (List.mem_map.mpr ⟨e, by simp [hmem, hx], rfl⟩)
      · simp only [if_true]
        rw [e1]
        exact List.mem_append_right _ (List.mem_map.mpr ⟨e, by simp [hmem, hx], rfl⟩)
    · rw [hn] at hmem; cases hmem
  refine ⟨u, by rw [hl, hr] at hu; exact hu, e.left, e.step, hin, s, hs, ?_, fun g y hy hxy => hadv e.left g e.step hin y hy hxy⟩
  have h1 := (abs_le.mp (hb' hk)).1
  have h2 : e.step.impactTime - E ≤ max 0 (e.step.impactTime - E) := le_max_right _ _
  linarith

theorem advances_same {p q : Planner ℝ} (h : SameStance p q) {l r : List (Step ℝ)} : Advances q cmd l r ↔ Advances p cmd l r := by
  unfold Advances
  simp only [behind_same h]

/-- Contacts in the same places and at the same times. -/
theorem advances_place {a b a' b' : Step ℝ} (h : Advances p cmd [a] [b]) (h1 : a'.position = a.position ∧ a'.angle = a.angle)
    (h2 : b'.position = b.position ∧ b'.angle = b.angle) (t1 : a'.impactTime = a.impactTime) (t2 : b'.impactTime = b.impactTime) :
    Advances p cmd [a'] [b'] := by
  intro f g x hx y hy hxy
  cases f <;> cases g <;> simp at hx hy <;> subst hx hy
  · exact behind_refl _ _
  · exact (behind_place h2 h1).mpr (h false true b (by simp) a (by simp) (by rw [← t1, ← t2]; exact hxy))
  · exact (behind_place h1 h2).mpr (h true false a (by simp) b (by simp) (by rw [← t1, ← t2]; exact hxy))
  · exact behind_refl _ _

end Planner

namespace Walker
variable {integ : Integrator ℝ} {sort : Sorter ℝ} {before old new w : Walker ℝ} {c : Call ℝ} {k m : Nat} {q : Request ℝ} {dT time : ℝ}
  {legs : List (Leg ℝ)} {cmd : Control ℝ} {u : UState ℝ}

theorem present_mem {steps : List (Step ℝ)} {t : ℝ} {s : Step ℝ} (h : Present steps t s) : s ∈ steps := by
  obtain ⟨o, n, e, -⟩ := h
  rw [e]; simp

/-- A walk that replaces another one. -/
theorem line_walk (hi : Integrates integ) (h : Merging integ sort before old new c k m .plain dT) (hL : NonNeg old.left) (hR : NonNeg old.right)
    (ht : ToldTo cmd new.planner) (hc : Unswerving cmd)
    (h1 : ∀ s, Present old.left.steps (timeOf c m) s → BesideWay new.planner u cmd true s)
    (h2 : ∀ s, Present old.right.steps (timeOf c m) s → BesideWay new.planner u cmd false s) : AllBeside new.planner u cmd new := by
  have hpi : (0 : ℝ) ≤ Trig.pi := by rw [pi_real]; exact Real.pi_pos.le
  obtain ⟨p2, fuel, fl, fr, l', r', t1, d, sL, sR, a, b, reset, g1, g2, -, -, -, -, ht2, -, f1, f2, h5, n1, n2, -, -, -, -, z1, z2, hq⟩ :=
    replanned_with hpi h hL hR ht.minTime
  obtain ⟨ht', hst⟩ := Planner.command_before hi h5 ht
  obtain ⟨x1, x2, x3, x4⟩ := hq rfl
  have key := Planner.line_plan (u := u) ht2 hi ht' hc f1 f2 z1 z2
    ((Planner.beside_place ⟨x1, x2⟩).mpr ((Planner.beside_same hst).mp (h1 _ g1)))
    ((Planner.beside_place ⟨x3, x4⟩).mpr ((Planner.beside_same hst).mp (h2 _ g2))) h5
  refine ⟨fun s hs => ?_, fun s hs => ?_⟩
  · rw [n1] at hs; exact (Planner.beside_same hst).mpr (key.1 s hs)
  · rw [n2] at hs; exact (Planner.beside_same hst).mpr (key.2 s hs)

/-- C126: a robot is told, while its feet are side by side (or anyway beside one line), to go straight forward or backward or to turn on
the spot; however often its walk is replaced from then on, with the command unchanged and without measurements, all contacts of all walks
are beside one and the same line, in the direction that was commanded first. -/
theorem C126_line (hi : Integrates integ) (hc : Unswerving cmd) (h : Walking integ sort dT legs w time)
    {pre more : List (Leg ℝ)} {first : Leg ℝ} (hlegs : legs = pre ++ first :: more)
    (htimes : Everywhere (fun w _ => NonNeg w.left ∧ NonNeg w.right) legs w time)
    (htold : Everywhere (fun v _ => ToldTo cmd v.planner ∧ SameStance w.planner v.planner) more w time)
    (hplain : ∀ l ∈ first :: more, l.request = .plain)
    (hL : ∀ s, Present first.walk.left.steps (leavingTime dT first) s → BesideWay w.planner u cmd true s)
    (hR : ∀ s, Present first.walk.right.steps (leavingTime dT first) s → BesideWay w.planner u cmd false s) :
    Everywhere (fun v _ => AllBeside w.planner u cmd v) more w time := by
  induction h generalizing more with
  | start => cases pre <;> cases hlegs
  | @again legs before old new c k m q hw hd hm ih =>
    obtain ⟨t1, t2⟩ := everywhere_snoc htimes
    have e : timeOf c m = (m : ℝ) * dT + (timesOf c).1 := by unfold timeOf; rw [hd]
    rcases List.eq_nil_or_concat more with rfl | ⟨more', last, rfl⟩
    · have : legs = pre ∧ first = ⟨old, (timesOf c).1, m, q⟩ := by
        obtain ⟨x, y⟩ := List.append_inj' hlegs rfl
        exact ⟨x, by simpa using y.symm⟩
      obtain ⟨-, rfl⟩ := this
      obtain rfl : q = .plain := hplain ⟨old, (timesOf c).1, m, q⟩ (by simp)
      refine ⟨by simp, line_walk hi hm t1.2.1 t1.2.2 htold.2.1 hc ?_ ?_⟩
      · rw [e]; exact hL
      · rw [e]; exact hR
    have hl : legs = pre ++ first :: more' ∧ last = ⟨old, (timesOf c).1, m, q⟩ := by
      have : legs ++ [(⟨old, (timesOf c).1, m, q⟩ : Leg ℝ)] = (pre ++ first :: more') ++ [last] := by simpa using hlegs
      obtain ⟨x, y⟩ := List.append_inj' this rfl
      exact ⟨x, by simpa using y.symm⟩
    obtain ⟨hl, rfl⟩ := hl
    rw [List.concat_eq_append] at htold hplain ⊢
    obtain ⟨st1, -⟩ := everywhere_snoc htold
    have hso := st1.2.2
    have hso' : SameStance old.planner new.planner := ⟨hso.1.symm, hso.2.1.symm, hso.2.2.symm⟩
    obtain ⟨i1, i2⟩ := ih hl t1 ⟨fun l hl => ⟨(st1.1 l hl).1, by
        obtain ⟨x1, x2, x3⟩ := (st1.1 l hl).2
        obtain ⟨y1, y2, y3⟩ := hso
        exact ⟨x1.trans y1.symm, x2.trans y2.symm, x3.trans y3.symm⟩⟩, st1.2.1, rfl, rfl, rfl⟩
      (fun l hl => hplain l (by
        rcases List.mem_cons.mp hl with rfl | hl
        · simp
        · simp [hl]))
      (fun s hs => (Planner.beside_same hso).mpr (hL s hs)) (fun s hs => (Planner.beside_same hso).mpr (hR s hs))
    have tr : ∀ v, AllBeside old.planner u cmd v → AllBeside new.planner u cmd v := fun v hv =>
      ⟨fun s hs => (Planner.beside_same hso').mpr (hv.1 s hs), fun s hs => (Planner.beside_same hso').mpr (hv.2 s hs)⟩
    obtain rfl : q = .plain := hplain ⟨old, (timesOf c).1, m, q⟩ (by simp)
    refine ⟨fun l hl => ?_, line_walk hi hm t1.2.1 t1.2.2 htold.2.1 hc (fun s hs => (tr _ i2).1 s (present_mem hs))
      fun s hs => (tr _ i2).2 s (present_mem hs)⟩
    rcases List.mem_append.mp hl with hl | hl
    · exact tr _ (i1 l hl)
    · rw [List.mem_singleton.mp hl]; exact tr _ i2

/-- A walk that replaces another one, with steps. -/
theorem advance_walk (hi : Integrates integ) (h : Merging integ sort before old new c k m .plain dT) (hL : NonNeg old.left) (hR : NonNeg old.right)
    (ht : ToldTo cmd new.planner) (hc : Unswerving cmd) (hsteps : 2 < new.left.steps.length + new.right.steps.length)
    (hbefore : ∀ sL sR, Present old.left.steps (timeOf c m) sL → Present old.right.steps (timeOf c m) sR →
      SideBySide new.planner sL sR ∨ (Advances new.planner cmd [sL] [sR] ∧ ∃ start, KeepsTimes ⟨old, start, m, .plain⟩)) :
    Advances new.planner cmd new.left.steps new.right.steps := by
  have hpi : (0 : ℝ) ≤ Trig.pi := by rw [pi_real]; exact Real.pi_pos.le
  obtain ⟨fuel0, hg⟩ := h.generated
  obtain ⟨w1, ordered, t, hmo⟩ := call_made_by hg
  obtain ⟨p2, fuel, fl, fr, l', r', t1, d, sL, sR, a, b, reset, g1, g2, c1, c2, -, c4, ht2, -, f1, f2, h5, n1, n2, hd, s1, s2, -, z1, z2, hq⟩ :=
    replanned_with hpi h hL hR ht.minTime
  obtain ⟨ht', hst⟩ := Planner.command_before hi h5 ht
  obtain ⟨x1, x2, x3, x4⟩ := hq rfl
  have h0 : Advances p2 cmd [a] [b] := by
    rcases hbefore sL sR g1 g2 with hs | ⟨hs, start, hk⟩
    · exact Planner.side_advances ((Planner.side_place ⟨x1, x2⟩ ⟨x3, x4⟩).mpr ((Planner.side_same hst _ _).mp hs))
    · have hno : reset = false := by
        cases hdcm : old.dcm with
        | none => exact c1 hdcm
        | some pd =>
          obtain ⟨-, o, -, ho, -⟩ := hmo.dcm pd hdcm
          obtain ⟨fuel, changes, weight, pos, vel, endTime, r1, r2, r3⟩ := h.replanned
          obtain ⟨s, hs, -⟩ := r2 pd o hdcm ho
          rw [c2 pd o s hdcm ho hs]
          simpa using hk.2 pd o s hdcm ho hs
      obtain ⟨e1, e2⟩ := c4 hno hk.1
      exact Planner.advances_place ((Planner.advances_same hst).mp hs) ⟨x1, x2⟩ ⟨x3, x4⟩ e1 e2
  rw [n1, n2]
  refine (Planner.advances_same hst).mpr (Planner.advance_plan ht2 hi ht' hc f1 f2 h0 hd fun hnil => ?_)
  have retimed : ∀ (fp fp' : FootPrint ℝ) (c : Step ℝ) (t : ℝ), fp.steps = [c] → Retimed fp t fp' → fp'.steps.length = 1 := by
    rintro fp fp' c t hc ⟨older, s, e, rfl⟩
    rw [hc] at e
    cases older with
    | nil => rfl
    | cons => simp at e
  rw [n1, n2] at hsteps
  rcases hd.effect with ⟨hne, -⟩ | ⟨-, l, r, hl', hr', hre⟩
  · exact hne hnil
  rw [s1, s2] at hre
  rcases hre with ⟨-, rfl, rfl⟩ | ⟨-, rfl, hre⟩ | ⟨-, hre, rfl⟩
  · rw [f1, f2] at hsteps; simp at hsteps
  · rw [f1, retimed _ _ _ _ f2 hre] at hsteps; simp at hsteps
  · rw [f2, retimed _ _ _ _ f1 hre] at hsteps; simp at hsteps

/-- C126: a robot is told, while its feet are side by side, to go straight forward or backward or to turn on the spot; however often its
walk is replaced from then on by another one with steps, with the command unchanged and without measurements, no contact is ever behind one
that was made before.  Needed: whenever a walk is replaced, the landing times are kept (the DCM
is not at rest) or the feet are side by side. -/
theorem C126_advances (hi : Integrates integ) (hc : Unswerving cmd) (h : Walking integ sort dT legs w time)
    {pre more : List (Leg ℝ)} {first : Leg ℝ} (hlegs : legs = pre ++ first :: more)
    (htimes : Everywhere (fun w _ => NonNeg w.left ∧ NonNeg w.right) legs w time)
    (htold : Everywhere (fun v _ => ToldTo cmd v.planner ∧ SameStance w.planner v.planner) more w time)
    (hsteps : Everywhere (fun v _ => 2 < v.left.steps.length + v.right.steps.length) more w time)
    (hplain : ∀ l ∈ first :: more, l.request = .plain)
    (hkeep : ∀ l ∈ more, KeepsTimes l ∨ ∀ sL sR, Present l.walk.left.steps (leavingTime dT l) sL → Present l.walk.right.steps (leavingTime dT l) sR →
      SideBySide w.planner sL sR)
    (hside : ∀ sL sR, Present first.walk.left.steps (leavingTime dT first) sL → Present first.walk.right.steps (leavingTime dT first) sR →
      SideBySide w.planner sL sR) :
    Everywhere (fun v _ => Advances w.planner cmd v.left.steps v.right.steps) more w time := by
  induction h generalizing more with
  | start => cases pre <;> cases hlegs
  | @again legs before old new c k m q hw hd hm ih =>
    obtain ⟨t1, t2⟩ := everywhere_snoc htimes
    have e : timeOf c m = (m : ℝ) * dT + (timesOf c).1 := by unfold timeOf; rw [hd]
    rcases List.eq_nil_or_concat more with rfl | ⟨more', last, rfl⟩
    · have : legs = pre ∧ first = ⟨old, (timesOf c).1, m, q⟩ := by
        obtain ⟨x, y⟩ := List.append_inj' hlegs rfl
        exact ⟨x, by simpa using y.symm⟩
      obtain ⟨-, rfl⟩ := this
      obtain rfl : q = .plain := hplain ⟨old, (timesOf c).1, m, q⟩ (by simp)
      refine ⟨by simp, advance_walk hi hm t1.2.1 t1.2.2 htold.2.1 hc hsteps.2 ?_⟩
      rw [e]; exact fun sL sR g1 g2 => .inl (hside sL sR g1 g2)
    have hl : legs = pre ++ first :: more' ∧ last = ⟨old, (timesOf c).1, m, q⟩ := by
      have : legs ++ [(⟨old, (timesOf c).1, m, q⟩ : Leg ℝ)] = (pre ++ first :: more') ++ [last] := by simpa using hlegs
      obtain ⟨x, y⟩ := List.append_inj' this rfl
      exact ⟨x, by simpa using y.symm⟩
    obtain ⟨hl, rfl⟩ := hl
    rw [List.concat_eq_append] at htold hplain hsteps hkeep ⊢
    obtain ⟨st1, -⟩ := everywhere_snoc htold
    obtain ⟨sp1, -⟩ := everywhere_snoc hsteps
    have hso := st1.2.2
    have hso' : SameStance old.planner new.planner := ⟨hso.1.symm, hso.2.1.symm, hso.2.2.symm⟩
    obtain ⟨i1, i2⟩ := ih hl t1 ⟨fun l hl => ⟨(st1.1 l hl).1, by
        obtain ⟨x1, x2, x3⟩ := (st1.1 l hl).2
        obtain ⟨y1, y2, y3⟩ := hso
        exact ⟨x1.trans y1.symm, x2.trans y2.symm, x3.trans y3.symm⟩⟩, st1.2.1, rfl, rfl, rfl⟩ sp1
      (fun l hl => hplain l (by
        rcases List.mem_cons.mp hl with rfl | hl
        · simp
        · simp [hl])) (fun l hl => (hkeep l (by simp [hl])).imp_right fun g sL sR g1 g2 => (Planner.side_same hso _ _).mpr (g sL sR g1 g2))
      (fun sL sR g1 g2 => (Planner.side_same hso _ _).mpr (hside sL sR g1 g2))
    have hk := hkeep ⟨old, (timesOf c).1, m, q⟩ (by simp)
    obtain rfl : q = .plain := hplain ⟨old, (timesOf c).1, m, q⟩ (by simp)
    have i2' := (Planner.advances_same hso').mpr i2
    refine ⟨fun l hl => ?_, advance_walk hi hm t1.2.1 t1.2.2 htold.2.1 hc hsteps.2 fun sL sR g1 g2 => hk.symm.imp
      (fun g => g sL sR (by simpa only [leavingTime, ← e] using g1) (by simpa only [leavingTime, ← e] using g2)) fun hk => ⟨?_, _, hk⟩⟩
    · rcases List.mem_append.mp hl with hl | hl
      · exact (Planner.advances_same hso').mpr (i1 l hl)
      · rw [List.mem_singleton.mp hl]; exact i2'
    · intro f g x hx y hy hxy
      refine i2' f g x ?_ y ?_ hxy
      · cases f <;> simp at hx ⊢ <;> rw [hx] <;> first | exact present_mem g1 | exact present_mem g2
      · cases g <;> simp at hy ⊢ <;> rw [hy] <;> first | exact present_mem g1 | exact present_mem g2

/-! ## Examples -/

section
open Planner

/-- The orders to go forward, at 4 cm/s. -/
private noncomputable def forth : List (Planner.Op ℝ) := [.setSlowWhenTurnGain 0, .setSlowWhenBackwardFactor 1, .setSlowWhenSidewaysFactor 1,
  .setDesiredDirectControl ⟨1 / 25, 0, 0⟩]

private theorem forth_keeps (w : Walker ℝ) : SameConfig w.planner (w.runAll (forth.map .planner)).planner := by
  have h1 : ¬ (1 : ℝ) < 0 := by norm_num
  simp [forth, runAll, Walker.run, Planner.run, onAllControllers, BaseCtrl.setSlowWhenTurnGain, BaseCtrl.setSlowWhenBackwardFactor,
    BaseCtrl.setSlowWhenSidewaysFactor, SameConfig, h1]

private theorem forth_drives (w : Walker ℝ) (h : SameConfig realDemo w.planner) : Driven (w.runAll (forth.map .planner)).planner ⟨1 / 25, 0, 0⟩ := by
  have hk := SameConfig.trans h (forth_keeps w)
  have hpi := Real.pi_pos
  have hb : (w.runAll (forth.map .planner)).planner.ctrl.directBase.turnGain = 0 ∧
      (w.runAll (forth.map .planner)).planner.ctrl.directBase.backFactor = 1 ∧
      (w.runAll (forth.map .planner)).planner.ctrl.directBase.sideFactor = 1 ∧
      (w.runAll (forth.map .planner)).planner.ctrl.direct.desired = ⟨1 / 25, 0, 0⟩ := by
    have h1 : ¬ (1 : ℝ) < 0 := by norm_num
    simp [forth, runAll, Walker.run, Planner.run, onAllControllers, BaseCtrl.setSlowWhenTurnGain, BaseCtrl.setSlowWhenBackwardFactor,
      BaseCtrl.setSlowWhenSidewaysFactor, DirectCtrl.setConstantControl, h1]
  generalize (w.runAll (forth.map .planner)).planner = p at hk hb
  obtain ⟨b1, b2, b3, b4⟩ := hb
  obtain ⟨l1, l2⟩ := limits_same hk
  have hs : 1 / 25 ≤ speedLimit realDemo := forwardDemo_speed le_rfl
  have ht : 0 ≤ turnLimit realDemo := by simp only [turnLimit, realDemo, Planner.new, deg2rad, pi_real]; positivity
  refine ⟨?_, b4, ⟨?_, by rw [b1], by rw [b2]; norm_num, by rw [b3]; norm_num, by rw [l2]; simpa using ht, ?_, ?_, ?_⟩, ?_, ?_, ?_, ?_, ?_, ?_, ?_⟩
  · rw [hk]; rfl
  · rw [l1]; linarith
  · rw [l1, b1]; simpa using hs
  · rw [l1, b1, b2]; simp; linarith
  · rw [l1, b3]; simp; linarith
  · rw [hk]; norm_num [realDemo, Planner.new]
  · rw [hk]; norm_num [realDemo, Planner.new]
  · rw [hk]; norm_num [realDemo, Planner.new]
  · rw [hk]; rfl
  · rw [hk]; rfl
  · rw [hk]; norm_num [realDemo, Planner.new]
  · rw [hk]; exact fun x => rfl

private theorem forth_fits {p : Planner ℝ} (hk : SameConfig realDemo p) :
    StraightFits p ⟨1 / 25, 0, 0⟩ (max p.minTime (p.minLength / |1 / 25|) + p.dT + 3 * p.integratorStep) := by
  have hpi := Real.pi_pos
  have hS : max p.minTime (p.minLength / |1 / 25|) + p.dT + 3 * p.integratorStep = 3 + 1 / 25 := by
    rw [hk, abs_of_pos (by norm_num)]
    simp only [realDemo, Planner.new]
    rw [max_eq_left (by norm_num)]; norm_num
  rw [hS, hk]
  refine ⟨?_, ?_, ?_, ?_⟩ <;> intro m hm <;> simp only [realDemo, Planner.new, Problem.new, Option.some.injEq, reduceCtorEq] at hm ⊢
  · rw [← hm]; norm_num
  · rw [← hm]; norm_num
  · rw [← hm]; simp only [deg2rad, pi_real]; positivity

/-- Non-vacuity of `C126_progress`: the default planner, feet side by side, horizon of twenty seconds, 4 cm/s: the feet get at least 4 cm
forward. -/
example : ∃ p' l' r' u, ∃ f : Bool, ∃ x ∈ (if f then l' else r' : FootPrint ℝ).steps, ∃ s,
    (∃ fuel, (drivenDemo ⟨1 / 25, 0, 0⟩).computeNewSteps drivenInteg fuel ⟨[⟨⟨0, 7 / 100⟩, 0, 0, "left"⟩], "left"⟩
      ⟨[⟨⟨0, -7 / 100⟩, 0, 0, "right"⟩], "right"⟩ 0 20 = .done true p' l' r') ∧
    poseOf (drivenDemo ⟨1 / 25, 0, 0⟩) f x = goOn u ⟨1 / 25, 0, 0⟩ s ∧ 1 ≤ s := by
  obtain ⟨fuel, p', l', r', h⟩ := drivenDemo_plans ⟨1 / 25, 0, 0⟩ "left" "right"
  have hside : SideBySide (drivenDemo ⟨1 / 25, 0, 0⟩) ⟨⟨0, 7 / 100⟩, 0, 0, "left"⟩ ⟨⟨0, -7 / 100⟩, 0, 0, "right"⟩ := by
    unfold SideBySide
    ext <;> simp [drivenDemo, realDemo, Planner.new, stateFor, leftFoot, rightFoot, rot] <;> norm_num
  have hk : SameConfig realDemo (drivenDemo ⟨1 / 25, 0, 0⟩) := rfl
  obtain ⟨u, -, f, x, hx, s, hs, hlow, -⟩ := C126_progress (v := 1 / 25) (start := 1) (drivenDemo_timed ⟨1 / 25, 0, 0⟩)
    (drivenDemo_driven (forwardDemo_within (by norm_num) (forwardDemo_speed le_rfl) _ rfl)) (by norm_num)
    (by norm_num [drivenDemo, realDemo, Planner.new]) (by norm_num [drivenDemo, realDemo, Planner.new]) (forth_fits hk) driven_integrates rfl rfl
    le_rfl le_rfl (side_advances hside)
    (by
      intro first hf
      rw [hf rfl]
      simp only [executedFrom, drivenDemo, realDemo, Planner.new]
      norm_num)
    (by
      rw [abs_of_pos (by norm_num)]
      simp only [drivenDemo, realDemo, Planner.new]
      norm_num) h
  refine ⟨p', l', r', u, f, x, by cases f <;> exact hx, s, ⟨fuel, h⟩, hs, ?_⟩
  rw [abs_of_pos (by norm_num)] at hlow
  simp only [drivenDemo, realDemo, Planner.new] at hlow
  norm_num at hlow
  linarith

/-- The robot that was not told to move stands on both feet, side by side. -/
theorem strider_stands {w : Walker ℝ} {fuel : Nat} (h : strider.generate drivenInteg fuel insertion 0 (1 / 100) 20 = .done true w) :
    ∃ l r, w.left.steps = [l] ∧ w.right.steps = [r] ∧ l.impactTime = r.impactTime ∧ SideBySide realDemo l r := by
  have hpi := Real.pi_pos
  rcases next_done h with ⟨w1, e1, e2⟩ | ⟨hf, -⟩
  swap
  · cases hf
  obtain ⟨n1, n2, -⟩ := members_made_by e2
  unfold Walker.plan at e1
  split at e1
  rotate_left
  · cases e1
  · cases e1
  rename_i b p' l' r' hc
  simp only [Result.done.injEq] at e1
  obtain ⟨rfl, rfl⟩ := e1
  simp only at n1 n2
  have hl : strider.left.steps = [] := rfl
  have hr : strider.right.steps = [] := rfl
  rw [strider_planner] at hc
  have hw : WithinLimits realDemo ⟨0, 0, 0⟩ :=
    forwardDemo_within (v := 0) le_rfl ((by norm_num : (0 : ℝ) ≤ 1 / 25).trans (forwardDemo_speed le_rfl)) _ rfl
  obtain ⟨d, u, hd, -, -, -, k⟩ := C99_standing realDemo_timed (by intro s hs; rw [hl] at hs; cases hs) (by intro s hs; rw [hr] at hs; cases hs)
    rfl rfl hw (by norm_num [realDemo, Planner.new]) (by simp only [realDemo, Planner.new, deg2rad, pi_real]; positivity) uniformSteps_fixed
    (by simp [realDemo, Planner.new]) drivenInteg_direct hc
  have hlog := k (by intro l r h1; rw [hl] at h1; cases h1) (by rw [hl, hr])
  rcases hd.begins.steps with ⟨n, -, -⟩ | ⟨-, -, v, -, s1, s2⟩
  · exact absurd ⟨hl, hr⟩ n
  rcases hd.effect with ⟨hne, -, -⟩ | ⟨-, l, r, hl', hr', hre⟩
  · exact absurd hlog hne
  rw [s1] at hl'
  rw [s2] at hr'
  simp at hl' hr'
  have ht : l.impactTime = r.impactTime := by rw [← hl', ← hr']; rfl
  rcases hre with ⟨-, f1, f2⟩ | ⟨hlt, -⟩ | ⟨hlt, -⟩
  · refine ⟨l, r, by rw [n1, f1, s1, ← hl'], by rw [n2, f2, s2, ← hr'], ht, ?_⟩
    rw [side_state realDemo strider.left strider.right, ← hl', ← hr', state_step, state_step]
  · linarith
  · linarith

/-- The present contact, if there is only one. -/
private theorem present_single {x s : Step ℝ} {steps : List (Step ℝ)} {t : ℝ} (e : steps = [x]) (h : Present steps t s) : s = x := by
  have := present_mem h
  rw [e] at this
  simpa using this

/-- Non-vacuity of C126: a robot that stands is told to go forward.  The walk has steps, and no contact is behind an earlier one.  Then its
walk is replaced any number of times, at the end: all contacts are beside one line. -/
example (n : Nat) : ∃ (first : Leg ℝ) (walk : Walker ℝ) (start : ℝ) (more : List (Leg ℝ)) (w : Walker ℝ) (time : ℝ) (u : UState ℝ),
    Walking drivenInteg insertion (1 / 100) [first] walk start ∧ 2 < walk.left.steps.length + walk.right.steps.length ∧
    Advances walk.planner ⟨1 / 25, 0, 0⟩ walk.left.steps walk.right.steps ∧
    Walking drivenInteg insertion (1 / 100) (first :: more) w time ∧ more.length = n ∧
    Everywhere (fun v _ => AllBeside w.planner u ⟨1 / 25, 0, 0⟩ v) more w time := by
  obtain ⟨w0, fuel0, hgen, h0, c0, s0, r0⟩ := strider_generates drivenSol
  rw [← driven_moving] at h0 hgen
  obtain ⟨x, y, x1, y1, xy, hside⟩ := strider_stands hgen
  obtain ⟨m0, w1, -, h1, c1, r1, s1, -, fuel, nl, nr, sL, sR, cL, cR, g, pL, pR, tL, tR, q1, q2, q3, q4, q5⟩ :=
    driven_next h0 c0 r0 forth (SameConfig.trans s0 (forth_keeps w0))
  have hdr := forth_drives w0 s0
  have hk := SameConfig.trans s0 (forth_keeps w0)
  have hcmd : Unswerving (⟨1 / 25, 0, 0⟩ : Control ℝ) := ⟨rfl, .inl rfl⟩
  have hmin : 0 < (w0.runAll (forth.map .planner)).planner.minTime := by rw [hk]; norm_num [realDemo, Planner.new]
  have hpi : (0 : ℝ) ≤ Trig.pi := by rw [pi_real]; exact Real.pi_pos.le
  obtain ⟨_, _, _, hreach, -⟩ := walking_made h0
  have htimed : Timed (w0.runAll (forth.map .planner)).planner := (Reached.runAll _ hreach).timed hpi
  have hsL := present_single x1 pL
  have hsR := present_single y1 pR
  subst hsL hsR
  have htime : cL.impactTime = cR.impactTime := by
    rcases q5 with e | ⟨e1, e2⟩
    · exact e
    · rw [e1, e2, xy]
  have hstance : SameStance realDemo w1.planner := stance_same s1
  have hside' : SideBySide (w0.runAll (forth.map .planner)).planner cL cR :=
    (side_place ⟨q1, q2⟩ ⟨q3, q4⟩).mpr ((side_same (stance_same hk) _ _).mpr hside)
  obtain ⟨d, hd, -, hdec, hadv⟩ := C126_walks htimed hdr (by norm_num) hmin (forth_fits hk) driven_integrates (left := ⟨[cL], nl⟩)
    (right := ⟨[cR], nr⟩) rfl rfl tL tR (side_advances hside') (by
      intro first hf
      rw [hf htime]
      have v1 : (w0.runAll (forth.map .planner)).planner.nominalTime = realDemo.nominalTime := by rw [hk]
      have v2 : (w0.runAll (forth.map .planner)).planner.minTime = realDemo.minTime := by rw [hk]
      have v3 : (w0.runAll (forth.map .planner)).planner.dT = realDemo.dT := by rw [hk]
      have v4 : (w0.runAll (forth.map .planner)).planner.integratorStep = realDemo.integratorStep := by rw [hk]
      have v5 : (w0.runAll (forth.map .planner)).planner.minLength = realDemo.minLength := by rw [hk]
      simp only [waits, executedFrom, v1, v2, v3, v4, v5, Bool.and_self, if_true, max_self]
      simp only [realDemo, Planner.new]
      rw [abs_of_pos (by norm_num), max_eq_right (a := (m0 : ℝ) * (1 / 100) + 0) (by linarith), max_eq_left (b := (m0 : ℝ) * (1 / 100) + 0) (by linarith),
        max_eq_right (by linarith)]
      linarith) g
  have told : ToldTo ⟨1 / 25, 0, 0⟩ w1.planner :=
    command_after driven_integrates g ⟨hdr.controller, hdr.command, hmin, hdr.step, hdr.limits⟩
  have hlen : 2 < w1.left.steps.length + w1.right.steps.length := by
    have hlog : d.log ≠ [] := fun hn => hdec (List.append_eq_nil_iff.mp hn).1
    obtain ⟨s1, s2⟩ : d.l0 = ⟨[cL], nl⟩ ∧ d.r0 = ⟨[cR], nr⟩ := by
      rcases hd.begins.steps with ⟨-, s1, s2⟩ | ⟨n, -⟩
      · exact ⟨s1, s2⟩
      · cases n
    rcases hd.effect with ⟨-, e1, e2⟩ | ⟨hn, -⟩
    · obtain ⟨e, es, he⟩ := List.exists_cons_of_ne_nil hlog
      rw [e1, e2, s1, s2, he]
      cases hx : e.left <;> simp [extendBy, stepsOf, hx] <;> omega
    · exact absurd hn hlog
  have key : ∃ (more : List (Leg ℝ)) (w : Walker ℝ) (time : ℝ),
      Walking drivenInteg insertion (1 / 100) (⟨w0, 0, m0, .plain⟩ :: more) w time ∧ more.length = n ∧
      Everywhere (fun w time => Continuable insertion strider.planner.minTime (1 / 100) w time ∧ ComesToRest (1 / 100) w ∧
        SameConfig realDemo w.planner ∧ ToldTo ⟨1 / 25, 0, 0⟩ w.planner) more w time ∧ ∀ l ∈ more, l.request = .plain := by
    induction n with
    | zero => exact ⟨[], w1, _, by simpa using h1, rfl, ⟨by simp, c1, r1, s1, told⟩, by simp⟩
    | succ n ih =>
      obtain ⟨more, w, time, i1, i2, i3, i4⟩ := ih
      obtain ⟨j1, j2, j3, j4⟩ := i3.2
      obtain ⟨m, new, -, k2, k3, k4, k5, -, _, _, _, _, _, _, _, k6, -⟩ := driven_next i1 j1 j2 [] j3
      refine ⟨more ++ [⟨w, time, m, .plain⟩], new, _, by simpa using k2, by simp [i2],
        ⟨fun l hl => ?_, k3, k4, k5, command_after driven_integrates k6 j4⟩, fun l hl => ?_⟩
      · rcases List.mem_append.mp hl with hl | hl
        · exact i3.1 l hl
        · simp at hl; rw [hl]; exact i3.2
      · rcases List.mem_append.mp hl with hl | hl
        · exact i4 l hl
        · simp at hl; rw [hl]
  obtain ⟨more, w, time, i1, i2, i3, i4⟩ := key
  have hw : SameStance realDemo w.planner := stance_same i3.2.2.2.1
  refine ⟨_, w1, _, more, w, time, poseOf w.planner true sL, h1, hlen, ?_, i1, i2, ?_⟩
  · exact (C126_advances (pre := []) (more := []) driven_integrates hcmd h1 rfl
      ⟨fun l hl => by simp at hl; rw [hl]; exact ⟨c0.left, c0.right⟩, c1.left, c1.right⟩ ⟨by simp, told, rfl, rfl, rfl⟩ ⟨by simp, hlen⟩
      (by simp) (by simp) (by
        intro a b ha hb
        rw [present_single x1 ha, present_single y1 hb]
        exact (side_same hstance _ _).mpr hside)).2
  · refine C126_line (pre := []) driven_integrates hcmd i1 rfl ⟨fun l hl => ?_, i3.2.1.left, i3.2.1.right⟩
      ⟨fun l hl => ⟨(i3.1 l hl).2.2.2, ?_⟩, i3.2.2.2.2, rfl, rfl, rfl⟩ (by simpa using i4) ?_ ?_
    · rcases List.mem_cons.mp hl with rfl | hl
      · exact ⟨c0.left, c0.right⟩
      · exact ⟨(i3.1 l hl).1.left, (i3.1 l hl).1.right⟩
    · obtain ⟨a1, a2, a3⟩ := stance_same (i3.1 l hl).2.2.1
      obtain ⟨b1, b2, b3⟩ := hw
      exact ⟨a1.trans b1.symm, a2.trans b2.symm, a3.trans b3.symm⟩
    · intro s hs
      rw [present_single x1 hs]
      exact ⟨0, le_rfl, (goOn_zero _ _).symm⟩
    · intro s hs
      rw [present_single y1 hs]
      exact ⟨0, le_rfl, by rw [goOn_zero]; exact ((side_same hw _ _).mpr hside).symm⟩

end

end Walker
end Uni
