import Verif.Lemmas.MirrorWalk
import Verif.Props.Mirror
import Verif.Props.MirrorPlan
import Verif.Props.Ties

/-! # C101: the requests to the generator in the mirror -/

set_option autoImplicit false
set_option linter.unusedSectionVars false

namespace Uni.Spec
open Uni Uni.Gen Uni.Walker

section
variable {K : Type} [Field K] [LinearOrder K] [IsStrictOrderedRing K] [FloorRing K] [Trig K]
variable {w w' w1 : Walker K} {integ : Integrator K} {sort sort' : Sorter K} {fuel : Nat} {t dT e : K}

/-- C101: settings with left and right exchanged, those of the planner included. -/
theorem C101_settings (hp : TrigParity K) (h : WalkersMirrored w w') (o : Op K) :
    WalkersMirrored (w.run o) (w'.run (Mirror.walkerOp o)) := by
  cases o with
  | planner o =>
    exact ⟨{ h.settings with }, (C100_settings hp h.planner o).2, h.left, h.right⟩
  | timing o => exact ⟨h.settings.run (.timing o), h.planner, h.left, h.right⟩
  | addCubic => exact ⟨h.settings.run .addCubic, h.planner, h.left, h.right⟩
  | addMinJerk => exact ⟨h.settings.run .addMinJerk, h.planner, h.left, h.right⟩
  | addZmp g => exact ⟨h.settings.run (.addZmp g), h.planner, h.left, h.right⟩
  | addDcm => exact ⟨h.settings.run .addDcm, h.planner, h.left, h.right⟩
  | addHeight => exact ⟨h.settings.run .addHeight, h.planner, h.left, h.right⟩
  | cubic o => exact ⟨h.settings.run (.cubic o), h.planner, h.left, h.right⟩
  | minJerk o => exact ⟨h.settings.run (.minJerk o), h.planner, h.left, h.right⟩
  | zmp o => exact ⟨h.settings.run (.zmp o), h.planner, h.left, h.right⟩
  | dcm o => exact ⟨h.settings.run (.dcm o), h.planner, h.left, h.right⟩
  | height a b => exact ⟨h.settings.run (.height a b), h.planner, h.left, h.right⟩

/-- C101: a new generator, and a new one whose planner is told to start with the right foot. -/
theorem C101_new (garbage : K) : WalkersMirrored (Walker.new garbage) ((Walker.new garbage).run (.planner (.startWithLeft false))) :=
  ⟨{ SettingsMirrored.new garbage with }, C100_new, rfl, rfl⟩

private theorem kept {w w1 : Walker K} {left right : FootPrint K} {s : List (Ptr K)}
    (h : w.generateFromFootPrints left right t dT s = .ok (true, w1)) : w1.planner = w.planner := by
  obtain ⟨c, m, z, d, g, o, t, e, -⟩ := fromFootPrints_ok h
  rw [e]

private theorem members {w w' w1 : Walker K} (hp : TrigParity K) (hsort : ∀ l r, SortedPtrs l r (sort l r))
    (hsort' : ∀ l r, SortedPtrs l r (sort' l r)) (h : WalkersMirrored w w') (hf : FirstContactsFirst w.left w.right) (nl : Named w.left)
    (nr : Named w.right) (hw : w.fromMembers t dT sort = .done true w1) :
    ∃ w1', w'.fromMembers t dT sort' = .done true w1' ∧ WalkMirrored w1 w1' ∧ WalkersMirrored w1 w1' := by
  unfold fromMembers at hw ⊢
  cases hg : w.generateFromFootPrints w.left w.right t dT (sort w.left w.right) with
  | fail => rw [hg] at hw; cases hw
  | ub u => rw [hg] at hw; cases hw
  | ok x =>
    obtain ⟨b, w2⟩ := x
    rw [hg] at hw
    cases hw
    rw [h.left, h.right]
    obtain ⟨w1', g1, g2⟩ := C93_any_order_partial hp h.settings hf nl nr (hsort _ _) (hsort' _ _) hg
    rw [g1]
    refine ⟨w1', rfl, g2, g2.settings, ?_, g2.left, g2.right⟩
    rw [kept hg, kept g1]
    exact h.planner

private theorem firsts {p : Planner K} {left right left' right' : FootPrint K} {t0 t1 : K} {d : Plan K}
    (h : PlanOf p integ left right t0 t1 left' right' d) (hp : Timed p) (hm : 0 < p.minTime)
    (h1 : left.steps.length = right.steps.length) (h2 : left.steps.length ≤ 1) : FirstContactsFirst left' right' := by
  obtain ⟨l, ls, r, rs, hl, hr, a, b, -, -, hw⟩ := planned_wellSpaced h hp hm h1 h2
  intro x y hx hy s hs
  rw [hl] at hx
  rw [hr] at hy
  cases hx
  cases hy
  have := hw.after s hs
  exact ⟨lt_of_le_of_lt a this, lt_of_le_of_lt b this⟩

/-- C101 (partial).  Full statement: if left and right are exchanged in the footprints, in the settings of the planner and in those of
the generators, `generate` succeeds as well and the trajectories are those of the mirror.  Missing: motions that turn
(`C100_turning_violated`), and what is missing in C93. -/
theorem C101_generate_partial (hp : TrigParity K) (hpi : (0 : K) ≤ Trig.pi) (hsort : ∀ l r, SortedPtrs l r (sort l r))
    (hsort' : ∀ l r, SortedPtrs l r (sort' l r)) (h : WalkersMirrored w w') (hr : Reached integ sort w)
    (hi : IntegratorMirrored w.planner integ) (hn : NeverTurns w.planner integ) (hf : FeetAhead w.planner w.left w.right)
    (hm : 0 < w.planner.minTime) (h1 : w.left.steps.length = w.right.steps.length) (h2 : w.left.steps.length ≤ 1)
    (nl : Named w.left) (nr : Named w.right) (hL : NonNeg w.left) (hR : NonNeg w.right)
    (hw : w.generate integ fuel sort t dT e = .done true w1) :
    ∃ w1', w'.generate integ fuel sort' t dT e = .done true w1' ∧ WalkMirrored w1 w1' ∧ WalkersMirrored w1 w1' := by
  have htm := hr.timed hpi
  have hpl := C100_straight_partial hp h.planner hi hn hf fuel t e
  unfold generate Walker.plan at hw ⊢
  rw [h.left, h.right]
  cases hc : w.planner.computeNewSteps integ fuel w.left w.right t e with
  | ub u => rw [hc] at hw; cases hw
  | outOfFuel => rw [hc] at hw; cases hw
  | done b p l r =>
    rw [hc] at hw hpl
    obtain ⟨p', q1, q2⟩ := hpl
    rw [q2]
    cases b with
    | false => cases hw
    | true =>
      obtain ⟨d, hd⟩ := Planner.exists_plan htm hL hR hc
      obtain ⟨n1, n2, -⟩ := hd.named nl nr
      exact members (w := { w with planner := p, left := l, right := r })
        (w' := { w' with planner := p', left := Mirror.footPrint r, right := Mirror.footPrint l }) hp hsort hsort'
        ⟨{ h.settings with }, q1, rfl, rfl⟩ (firsts hd htm hm h1 h2) n1 n2 hw

end

section
variable {w w' w1 : Walker ℝ} {integ : Integrator ℝ} {sort sort' : Sorter ℝ} {fuel : Nat} {t dT e : ℝ}

private theorem velocity (h : WalkersMirrored w w') : shouldReset w'.dcmVelocity = shouldReset w.dcmVelocity := by
  have hd := h.settings.dcm
  unfold Walker.dcmVelocity
  generalize w.dcm = d at hd ⊢
  generalize w'.dcm = d' at hd ⊢
  rcases d with _ | p <;> rcases d' with _ | p'
  · rfl
  · exact hd.elim
  · exact hd.elim
  · have hd : p'.state = Mirror.dcmState p.state := hd
    simp only
    rw [hd]
    simp only [Mirror.dcmState]
    cases p.state.initial with
    | none => rfl
    | some s => exact Mirror.reset (.known s.2)

/-- C101 (partial): `reGenerate`, with or without measured contacts.  Missing: motions and measurements that turn the feet, and what is
missing in C93. -/
theorem C101_regenerate_partial (hsort : ∀ l r, SortedPtrs l r (sort l r)) (hsort' : ∀ l r, SortedPtrs l r (sort' l r))
    (h : WalkersMirrored w w') (hr : Reached integ sort w) (hi : IntegratorMirrored w.planner integ) (hn : NeverTurns w.planner integ)
    (hl : w.planner.leftYaw = 0) (hr' : w.planner.rightYaw = 0) {a : ℝ} (hs : ∀ s ∈ w.left.steps ++ w.right.steps, s.angle = a)
    {q : Request ℝ} (hq : Parallel a q) (hm : 0 < w.planner.minTime) (hL : NonNeg w.left) (hR : NonNeg w.right)
    (hw : w.reGenerate integ fuel sort t dT e q = .done true w1) :
    ∃ w1', w'.reGenerate integ fuel sort' t dT e (Mirror.request q) = .done true w1' ∧ WalkMirrored w1 w1' ∧ WalkersMirrored w1 w1' := by
  have htm := hr.timed (by simp [Real.pi_pos.le])
  unfold reGenerate Walker.replan at hw ⊢
  rw [h.left, h.right]
  cases hc : Gen.replan w.planner integ fuel w.dcmVelocity w.left w.right t e q with
  | ub u => rw [hc] at hw; cases hw
  | outOfFuel => rw [hc] at hw; cases hw
  | done b p l r prev =>
    rw [hc] at hw
    cases b with
    | false => cases hw
    | true =>
      obtain ⟨p', q1, q2⟩ := Mirror.replan C93_parity h.planner hi hn fuel (velocity h) hl hr' hs t e hq hc
      rw [q2]
      obtain ⟨sL, sR, cL, cR, d, -, -, -, -, c1, c2, hd⟩ := C52_contacts_partial htm hL hR hc
      obtain ⟨n1, n2, -⟩ := hd.named (by intro s hs; simp only [List.mem_singleton] at hs; rw [hs]; exact c1)
        (by intro s hs; simp only [List.mem_singleton] at hs; rw [hs]; exact c2)
      simp only [Result.next] at hw ⊢
      have hff := firsts hd htm hm rfl (le_refl _)
      refine members C93_parity hsort hsort' ⟨?_, q1, rfl, rfl⟩ hff n1 n2 hw
      cases prev with
      | none => exact { h.settings with }
      | some s =>
        refine { h.settings with zmp := ?_ }
        have hz := h.settings.zmp
        simp only [Option.map_some]
        generalize w.zmp = z at hz ⊢
        generalize w'.zmp = z' at hz ⊢
        rcases z with _ | z <;> rcases z' with _ | z'
        · trivial
        · exact hz.elim
        · exact hz.elim
        · have hz : ZmpStateMirrored z.state z'.state := hz
          exact ⟨hz.offsets, hz.initial, ⟨rfl, fun _ => ⟨rfl, rfl⟩⟩, hz.states⟩

/-- C101 (partial): any request. -/
theorem C101_call_partial (hsort : ∀ l r, SortedPtrs l r (sort l r)) (hsort' : ∀ l r, SortedPtrs l r (sort' l r))
    (h : WalkersMirrored w w') (hr : Reached integ sort w) {c : Call ℝ} (hu : CallUntied w c) (hc : CallStraight integ w c)
    (hw : w.call integ fuel sort c = .done true w1) :
    ∃ w1', w'.call integ fuel sort' (Mirror.call c) = .done true w1' ∧ WalkMirrored w1 w1' ∧ WalkersMirrored w1 w1' := by
  cases c with
  | fromFootPrints l r t dT =>
    simp only [Walker.call, Mirror.call] at hw ⊢
    cases hg : w.generateFromFootPrints l r t dT (sort l r) with
    | fail => rw [hg] at hw; cases hw
    | ub u => rw [hg] at hw; cases hw
    | ok x =>
      obtain ⟨b, w2⟩ := x
      rw [hg] at hw
      cases hw
      obtain ⟨w1', g1, g2⟩ := C93_any_order_partial C93_parity h.settings hu.2.2 hu.1 hu.2.1 (hsort _ _) (hsort' _ _) hg
      rw [g1]
      refine ⟨w1', rfl, g2, g2.settings, ?_, g2.left, g2.right⟩
      rw [kept hg, kept g1]
      exact h.planner
  | generate t dT e =>
    obtain ⟨a1, a2, a3⟩ := hc
    obtain ⟨b1, b2, b3, b4, b5, b6, b7⟩ := hu
    exact C101_generate_partial C93_parity (by simp [Real.pi_pos.le]) hsort hsort' h hr a1 a2 a3 b1 b2 b3 b4 b5 b6 b7 hw
  | reGenerate t dT e q =>
    obtain ⟨a1, a2, a3, a4, a, a5, a6⟩ := hc
    obtain ⟨b1, b2, b3⟩ := hu
    exact C101_regenerate_partial hsort hsort' h hr a1 a2 a3 a4 a5 a6 b1 b2 b3 hw

/-- C101 (partial): a whole history of settings and of requests.  The planner of the mirror starts with the other foot. -/
theorem C101_history_partial (hsort : ∀ l r, SortedPtrs l r (sort l r)) (hsort' : ∀ l r, SortedPtrs l r (sort' l r)) (garbage : ℝ)
    (es : List (Op ℝ ⊕ Call ℝ)) (hes : StraightHistory integ fuel sort (Walker.new garbage) es)
    (h : afterCalls integ fuel sort (Walker.new garbage) es = some w1) :
    ∃ w1', afterCalls integ fuel sort' (Walker.new garbage) (.inl (.planner (.startWithLeft false)) :: Mirror.events es) = some w1' ∧
      WalkersMirrored w1 w1' ∧ (∀ c, es.getLast? = some (.inr c) → WalkMirrored w1 w1') := by
  have key : ∀ (es : List (Op ℝ ⊕ Call ℝ)) (w w' : Walker ℝ), WalkersMirrored w w' → Reached integ sort w →
      StraightHistory integ fuel sort w es → afterCalls integ fuel sort w es = some w1 →
      ∃ w1', afterCalls integ fuel sort' w' (Mirror.events es) = some w1' ∧ WalkersMirrored w1 w1' ∧
        (∀ c, es.getLast? = some (.inr c) → WalkMirrored w1 w1') := by
    intro es
    induction es with
    | nil =>
      intro w w' h _ _ h1
      cases h1
      exact ⟨w', rfl, h, fun c hc => by cases hc⟩
    | cons x es ih =>
      intro w w' h hr hes h1
      cases x with
      | inl o =>
        obtain ⟨w1', g1, g2, g3⟩ := ih (w.run o) _ (C101_settings C93_parity h o) (.op _ _ hr) hes h1
        refine ⟨w1', g1, g2, fun c hl => ?_⟩
        cases es with
        | nil => simp at hl
        | cons y es => rw [List.getLast?_cons_cons] at hl; exact g3 c hl
      | inr c =>
        obtain ⟨hu, hc, hes⟩ := hes
        simp only [afterCalls] at h1
        cases hg : w.call integ fuel sort c with
        | ub u => rw [hg] at h1; cases h1
        | outOfFuel => rw [hg] at h1; cases h1
        | done b w2 =>
          cases b with
          | false => rw [hg] at h1; cases h1
          | true =>
            rw [hg] at h1
            simp only at h1
            obtain ⟨w2', m1, m2, m3⟩ := C101_call_partial hsort hsort' h hr hu hc hg
            obtain ⟨w1', g1, g2, g3⟩ := ih w2 w2' m3 (.call _ _ fuel c true hr hg) (hes w2 hg) h1
            refine ⟨w1', ?_, g2, fun d hl => ?_⟩
            · simp only [Mirror.events, List.map_cons, Sum.map_inr, afterCalls, m1]
              exact g1
            · cases es with
              | nil =>
                cases h1
                cases g1
                exact m2
              | cons y es => rw [List.getLast?_cons_cons] at hl; exact g3 d hl
  exact key es _ _ (C101_new garbage) (.new garbage) hes h

end

/-! ## Examples -/

/-- Non-vacuity of the hypotheses on histories: a walk straight on. -/
example (integ : Integrator ℝ) (sort : Sorter ℝ) (fuel : Nat) (durations : ℝ → ℝ → List ℝ) (v t dT e : ℝ)
    (hi : integ = Planner.euler durations 0) :
    StraightHistory integ fuel sort (Walker.new (0 : ℝ)) [.inl (.planner (.setUnicycleController .direct)),
      .inl (.planner (.setDesiredDirectControl ⟨v, 0, 0⟩)), .inr (.generate t dT e)] := by
  subst hi
  have h1 : (((Walker.new (0 : ℝ)).run (.planner (.setUnicycleController .direct))).run
      (.planner (.setDesiredDirectControl ⟨v, 0, 0⟩))).planner.controller = .direct := rfl
  refine ⟨⟨by norm_num [Walker.new, Planner.new, Walker.run, Planner.run], rfl, by simp [Walker.new, Walker.run],
    by simp [Named, Walker.new, Walker.run], by simp [Named, Walker.new, Walker.run], by simp [NonNeg, Walker.new, Walker.run],
    by simp [NonNeg, Walker.new, Walker.run]⟩, ⟨C100_motion C93_parity (Or.inl h1) _ _, Mirror.euler_straight h1 rfl _ _,
    rfl, rfl, ?_⟩, fun _ _ => trivial⟩
  intro l r hl
  simp [Walker.new, Walker.run] at hl

section
/-- Rational stand-ins, good enough for examples that go straight ahead. -/
private local instance trigMirrorWalk : Trig ℚ :=
  ⟨fun _ => 1, fun _ => 0, fun q => Nat.sqrt (⌊q * 10 ^ 8⌋₊) / 10 ^ 4, fun x => 1 + x, fun _ => 0, fun _ _ => 0, 22 / 7⟩

private def orders : Sorter ℚ := fun l r =>
  (Ptr.ofFeet l r).insertionSort fun a b => a.step.impactTime ≤ b.step.impactTime

private def forward : List (Op ℚ) := [.planner (.setPlannerPeriod 1), .planner (.setMaximumIntegratorStepSize 1),
  .planner (.setUnicycleController .direct), .planner (.setDesiredDirectControl ⟨1 / 50, 0, 0⟩),
  .planner (.setWidthSetting (13 / 100) (14 / 100)), .addCubic, .cubic (.setStepHeight (1 / 10)), .addHeight, .height (1 / 2) (1 / 100)]

/-- Non-vacuity: a walk of three steps is generated, the one of the mirror starts with the other foot. -/
example : ∃ w1 w1' : Walker ℚ,
    ((Walker.new 0).runAll forward).generate (Planner.euler (fun T h => List.replicate ⌈T / h⌉₊ h) 0) 100 orders 0 (1 / 2) 12 =
      .done true w1 ∧
    ((Walker.new 0).runAll (.planner (.startWithLeft false) :: forward.map Mirror.walkerOp)).generate
      (Planner.euler (fun T h => List.replicate ⌈T / h⌉₊ h) 0) 100 orders 0 (1 / 2) 12 = .done true w1' ∧
    w1.left.steps.map Step.impactTime = [0, 7, 15] ∧ w1'.right.steps.map Step.impactTime = [0, 7, 15] := by
  have key : ∀ (r : Result ℚ) (p : Walker ℚ → Bool), (match r with | .done true w => p w | _ => false) = true →
      ∃ w, r = .done true w ∧ p w = true := by
    intro r p h
    rcases r with ⟨_ | _, w⟩ | _ | _
    · cases h
    · exact ⟨w, rfl, h⟩
    · cases h
    · cases h
  obtain ⟨w1, h1, e1⟩ := key (((Walker.new 0).runAll forward).generate
    (Planner.euler (fun T h => List.replicate ⌈T / h⌉₊ h) 0) 100 orders 0 (1 / 2) 12)
    (fun w => decide (w.left.steps.map Step.impactTime = [0, 7, 15])) (by decide +kernel)
  obtain ⟨w1', h2, e2⟩ := key (((Walker.new 0).runAll (.planner (.startWithLeft false) :: forward.map Mirror.walkerOp)).generate
    (Planner.euler (fun T h => List.replicate ⌈T / h⌉₊ h) 0) 100 orders 0 (1 / 2) 12)
    (fun w => decide (w.right.steps.map Step.impactTime = [0, 7, 15])) (by decide +kernel)
  exact ⟨w1, w1', h1, h2, of_decide_eq_true e1, of_decide_eq_true e2⟩

end
end Uni.Spec
