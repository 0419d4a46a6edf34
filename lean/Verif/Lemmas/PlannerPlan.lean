import Verif.Lemmas.PlannerFacts
import Verif.Lemmas.Plane
import Verif.Spec.Feasible
import Verif.Props.Optimization

/-! # Consequences of `PlanOf` -/

set_option autoImplicit false
set_option linter.unusedSectionVars false

namespace Uni.Spec
variable {K : Type*} [Field K] [LinearOrder K] [Trig K]

section
variable {p : Planner K} {integ : Integrator K} {left right left' right' : FootPrint K} {t0 t1 : K} {d : Plan K}

theorem PlanOf.dT (h : PlanOf p integ left right t0 t1 left' right' d) : d.q.dT = p.dT := by rw [h.begins.eq]
theorem PlanOf.minTime (h : PlanOf p integ left right t0 t1 left' right' d) : d.q.minTime = p.minTime := by rw [h.begins.eq]
theorem PlanOf.maxTime (h : PlanOf p integ left right t0 t1 left' right' d) : d.q.maxTime = p.maxTime := by rw [h.begins.eq]
theorem PlanOf.nominalTime (h : PlanOf p integ left right t0 t1 left' right' d) : d.q.nominalTime = p.nominalTime := by
  rw [h.begins.eq]
theorem PlanOf.problem (h : PlanOf p integ left right t0 t1 left' right' d) : d.q.problem = p.problem := by rw [h.begins.eq]
theorem PlanOf.initTime (h : PlanOf p integ left right t0 t1 left' right' d) : d.q.initTime = t0 := by rw [h.begins.eq]
theorem PlanOf.endTime (h : PlanOf p integ left right t0 t1 left' right' d) : d.q.endTime = t1 := by rw [h.begins.eq]
theorem PlanOf.leftYaw (h : PlanOf p integ left right t0 t1 left' right' d) : d.q.leftYaw = p.leftYaw := by rw [h.begins.eq]
theorem PlanOf.rightYaw (h : PlanOf p integ left right t0 t1 left' right' d) : d.q.rightYaw = p.rightYaw := by rw [h.begins.eq]
theorem leftFoot_begins {q : Planner K} {sol : K → UState K} {l0 r0 : FootPrint K} {prev : Step K}
    (h : Begins p integ left right t0 t1 q sol l0 r0 prev) (fp : FootPrint K) : leftFoot q fp = leftFoot p fp := by
  rw [h.eq]; rfl
theorem rightFoot_begins {q : Planner K} {sol : K → UState K} {l0 r0 : FootPrint K} {prev : Step K}
    (h : Begins p integ left right t0 t1 q sol l0 r0 prev) (fp : FootPrint K) : rightFoot q fp = rightFoot p fp := by
  rw [h.eq]; rfl
end

variable [IsStrictOrderedRing K]
variable {p : Planner K} {integ : Integrator K} {left right left' right' : FootPrint K} {t0 t1 : K} {d : Plan K}

/-- The terminal landings. -/
theorem PlanOf.terminal_along (h : PlanOf p integ left right t0 t1 left' right' d) (hn : 0 ≤ p.nominalTime) :
    Along (fun s e => e.kind = .terminal ∧ s.impactTime + p.nominalTime ≤ e.step.impactTime ∧
      t0 + p.nominalTime ≤ e.step.impactTime) d.final.prev d.terminal := by
  have ht := h.terminal
  split_ifs at ht
  · have := Planner.terminal_along ht (by rw [h.nominalTime]; exact hn)
    rwa [h.nominalTime, h.initTime] at this
  · rw [ht]; trivial

theorem PlanOf.alternates (h : PlanOf p integ left right t0 t1 left' right' d) : Alternates d.firstLeft d.log := by
  refine Planner.run_alternates_append h.run ?_
  have ht := h.terminal
  split_ifs at ht
  · exact Planner.terminal_alternates ht
  · rw [ht]; trivial

/-- The decided landings and the situations in which they are decided. -/
theorem PlanOf.situations (h : PlanOf p integ left right t0 t1 left' right' d) :
    Situations d.q (fun c e => Decided d.q d.sol d.left d.right c e) d.start d.decided :=
  (Planner.run_situations (I := fun _ => True) (fun _ _ _ _ => trivial) (fun _ _ _ h => h) h.run trivial).1

/-- Facts about all the landings. -/
theorem PlanOf.along {P : Step K → Landing K → Prop} (h : PlanOf p integ left right t0 t1 left' right' d)
    (hdec : ∀ c e, Decided d.q d.sol d.left d.right c e → P c.prev e) (hter : Along P d.final.prev d.terminal) :
    Along P d.prev d.log := by
  refine Planner.run_along_append h.run hter ?_
  exact Planner.Situations.along (p := d.q) (Planner.Situations.mono (fun c e hc => hdec c e hc) h.situations)

theorem PlanOf.gaps (h : PlanOf p integ left right t0 t1 left' right' d) (hp : Timed p) :
    Along (fun s e => s.impactTime + p.minTime ≤ e.step.impactTime) d.prev d.log := by
  refine h.along (fun c e hc => ?_) ((h.terminal_along hp.nominal_nonneg).mono fun s e he => ?_)
  · have := (Planner.decided_facts hc).2.2.1
    rwa [h.minTime] at this
  · have := hp.nominal
    linarith [he.2.1]

/-- Times along a chain of landings. -/
theorem along_times {m : K} (hm : 0 ≤ m) : ∀ {log : List (Landing K)} {prev : Step K},
    Along (fun s e => s.impactTime + m ≤ e.step.impactTime) prev log →
      (∀ e ∈ log, prev.impactTime + m ≤ e.step.impactTime) ∧
      log.Pairwise (fun a b => a.step.impactTime + m ≤ b.step.impactTime)
  | [], _, _ => ⟨by simp, .nil⟩
  | e :: es, prev, h => by
    obtain ⟨h1, h2⟩ := along_times hm h.2
    refine ⟨fun x hx => ?_, .cons h1 h2⟩
    rcases List.mem_cons.mp hx with rfl | hx
    · exact h.1
    · have a := h1 x hx
      have b : prev.impactTime + m ≤ e.step.impactTime := h.1
      linarith

theorem stepsOf_pairwise {m : K} (b : Bool) {log : List (Landing K)}
    (h : log.Pairwise (fun a b => a.step.impactTime + m ≤ b.step.impactTime)) :
    (stepsOf b log).Pairwise (fun a b => a.impactTime + m ≤ b.impactTime) := by
  unfold stepsOf
  exact List.pairwise_map.mpr (h.filter _)

theorem mem_stepsOf {b : Bool} {log : List (Landing K)} {s : Step K} (h : s ∈ stepsOf b log) :
    ∃ e ∈ log, e.left = b ∧ e.step = s := by
  unfold stepsOf at h
  obtain ⟨e, he, rfl⟩ := List.mem_map.mp h
  obtain ⟨h1, h2⟩ := List.mem_filter.mp he
  exact ⟨e, h1, by simpa using h2, rfl⟩

/-- In time order. -/
def InOrder (fp : FootPrint K) : Prop := fp.steps.Pairwise (fun a b => a.impactTime ≤ b.impactTime)

theorem InOrder.le_last {fp : FootPrint K} (h : InOrder fp) {l : Step K} (hl : fp.steps.getLast? = some l) :
    ∀ s ∈ fp.steps, s.impactTime ≤ l.impactTime := by
  obtain ⟨older, ho⟩ := List.getLast?_eq_some_iff.mp hl
  intro s hs
  unfold InOrder at h
  rw [ho] at h hs
  rcases List.mem_append.mp hs with hs | hs
  · exact (List.pairwise_append.mp h).2.2 s hs l (by simp)
  · simp at hs; rw [hs]

theorem extendBy_inOrder {fp : FootPrint K} {b : Bool} {log : List (Landing K)} {prev : Step K} {m : K} (hm : 0 ≤ m)
    (h : InOrder fp) (hs : ∀ s, fp.steps.getLast? = some s → s.impactTime ≤ prev.impactTime)
    (ha : Along (fun s e => s.impactTime + m ≤ e.step.impactTime) prev log) : InOrder (extendBy fp b log) := by
  obtain ⟨h1, h2⟩ := along_times hm ha
  unfold InOrder extendBy
  refine List.pairwise_append.mpr ⟨h, (stepsOf_pairwise b h2).imp fun hab => by linarith, fun x hx y hy => ?_⟩
  obtain ⟨e, he, -, rfl⟩ := mem_stepsOf hy
  cases hl : fp.steps.getLast? with
  | none =>
    have : fp.steps = [] := by simpa using hl
    rw [this] at hx
    cases hx
  | some l =>
    have := h.le_last hl x hx
    have := hs l hl
    have := h1 e he
    linarith

theorem Retimed.inOrder {fp fp' : FootPrint K} {t : K} (h : Retimed fp t fp') (ho : InOrder fp)
    (hl : ∀ s, fp.steps.getLast? = some s → s.impactTime ≤ t) : InOrder fp' := by
  obtain ⟨older, s, h1, rfl⟩ := h
  have hs := hl s (by rw [h1]; simp)
  have hall := ho.le_last (l := s) (by rw [h1]; simp)
  unfold InOrder at ho ⊢
  rw [h1] at ho hall
  obtain ⟨a, -, -⟩ := List.pairwise_append.mp ho
  refine List.pairwise_append.mpr ⟨a, List.pairwise_singleton _ _, fun x hx y hy => ?_⟩
  simp only [List.mem_singleton] at hy
  rw [hy]
  exact (hall x (List.mem_append_left _ hx)).trans hs

theorem StartsFrom.inOrder {l0 r0 : FootPrint K} (h : StartsFrom p left right t0 l0 r0) (hl : InOrder left)
    (hr : InOrder right) : InOrder l0 ∧ InOrder r0 := by
  rcases h with ⟨-, rfl, rfl⟩ | ⟨-, -, u, -, rfl, rfl⟩
  · exact ⟨hl, hr⟩
  · exact ⟨List.pairwise_singleton _ _, List.pairwise_singleton _ _⟩

theorem Realigned.inOrder {l0 r0 l1 r1 : FootPrint K} (h : Realigned l0 r0 l1 r1) (hl : InOrder l0) (hr : InOrder r0) :
    InOrder l1 ∧ InOrder r1 := by
  obtain ⟨l, r, h1, h2, ⟨-, rfl, rfl⟩ | ⟨h3, rfl, h4⟩ | ⟨h3, h4, rfl⟩⟩ := h
  · exact ⟨hl, hr⟩
  · exact ⟨hl, h4.inOrder hr fun s hs => by rw [h2] at hs; cases hs; exact h3.le⟩
  · exact ⟨h4.inOrder hl fun s hs => by rw [h1] at hs; cases hs; exact h3.le, hr⟩

theorem PlanOf.inOrder (h : PlanOf p integ left right t0 t1 left' right' d) (hp : Timed p) (hl : InOrder left)
    (hr : InOrder right) : InOrder left' ∧ InOrder right' := by
  obtain ⟨h1, h2⟩ := h.begins.steps.inOrder hl hr
  rcases h.effect with ⟨-, rfl, rfl⟩ | ⟨-, hre⟩
  · have hlast := h.begins.last
    have hswing := h.begins.swing
    have hgap := h.gaps hp
    constructor
    · refine extendBy_inOrder hp.minTime h1 (fun s hs => ?_) hgap
      cases hb : d.q.swingLeft with
      | true => rw [hb, if_pos rfl] at hswing; exact hswing s hs
      | false =>
        rw [hb, if_neg (by simp)] at hlast
        rw [hlast] at hs
        cases hs
        exact le_refl _
    · refine extendBy_inOrder hp.minTime h2 (fun s hs => ?_) hgap
      cases hb : d.q.swingLeft with
      | true => rw [hb, if_pos rfl] at hlast; rw [hlast] at hs; cases hs; exact le_refl _
      | false => rw [hb, if_neg (by simp)] at hswing; exact hswing s hs
  · exact hre.inOrder h1 h2

theorem FirstFoot.together_eq {l r : Option (Step K)} {b b' f : Bool} (h : FirstFoot p l r b true)
    (h' : FirstFoot p l r b' f) : f = true := by
  cases h with
  | empty => cases h'; rfl
  | together l r hlr =>
    cases h' with
    | together => rfl
    | leftOlder _ _ h => exact absurd hlr h.ne
    | rightOlder _ _ h => exact absurd hlr h.ne'

/-! ## Appending -/

theorem StartsFrom.grows {l0 r0 : FootPrint K} (h : StartsFrom p left right t0 l0 r0) :
    left.steps <+: l0.steps ∧ right.steps <+: r0.steps ∧ l0.footName = left.footName ∧ r0.footName = right.footName := by
  rcases h with ⟨-, rfl, rfl⟩ | ⟨a, b, u, -, rfl, rfl⟩
  · exact ⟨List.prefix_refl _, List.prefix_refl _, rfl, rfl⟩
  · rw [a, b]; exact ⟨List.nil_prefix, List.nil_prefix, rfl, rfl⟩

theorem PlanOf.grows (h : PlanOf p integ left right t0 t1 left' right' d) :
    (left.steps <+: left'.steps ∧ right.steps <+: right'.steps ∧ left'.footName = left.footName ∧
      right'.footName = right.footName) ∨ Realigned left right left' right' := by
  obtain ⟨g1, g2, g3, g4⟩ := h.begins.steps.grows
  rcases h.effect with ⟨-, rfl, rfl⟩ | ⟨-, hre⟩
  · exact .inl ⟨g1.trans (List.prefix_append _ _), g2.trans (List.prefix_append _ _), g3, g4⟩
  · rcases h.begins.steps with ⟨-, e1, e2⟩ | ⟨-, -, u, -, e1, e2⟩
    · rw [e1, e2] at hre; exact .inr hre
    · left
      obtain ⟨l, r, h1, h2, ⟨-, rfl, rfl⟩ | ⟨h3, -, -⟩ | ⟨h3, -, -⟩⟩ := hre
      · exact ⟨g1, g2, g3, g4⟩
      · rw [e1] at h1; rw [e2] at h2
        simp only [List.getLast?_singleton, Option.some.injEq] at h1 h2
        rw [← h1, ← h2] at h3
        exact absurd h3 (lt_irrefl _)
      · rw [e1] at h1; rw [e2] at h2
        simp only [List.getLast?_singleton, Option.some.injEq] at h1 h2
        rw [← h1, ← h2] at h3
        exact absurd h3 (lt_irrefl _)

/-! ## Parallel feet -/

theorem stateFor_stepOf (F : Foot K) (u : UState K) (t : K) : stateFor F (stepOf F u t) = u := by
  unfold stateFor stepOf
  simp only [add_sub_cancel_right]
  have : u.position + rot u.angle F.distance - rot u.angle F.distance = u.position := by
    ext <;> simp
  rw [this]

theorem stateFor_leftFoot (f g : FootPrint K) (s : Step K) : stateFor (leftFoot p f) s = stateFor (leftFoot p g) s := rfl
theorem stateFor_rightFoot (f g : FootPrint K) (s : Step K) : stateFor (rightFoot p f) s = stateFor (rightFoot p g) s := rfl

theorem Plan.start_holds (h : PlanOf p integ left right t0 t1 left' right' d) : Planner.Holds d.l0 d.r0 d.start :=
  ⟨h.begins.last, rfl⟩

theorem PlanOf.closed (h : PlanOf p integ left right t0 t1 left' right' d) (hT : p.addTerminal = true) :
    Closed (leftFoot p left') (rightFoot p right') := by
  have ht := h.terminal
  rw [if_pos hT] at ht
  have eL : d.left = leftFoot p d.l0 := leftFoot_begins h.begins d.l0
  have eR : d.right = rightFoot p d.r0 := rightFoot_begins h.begins d.r0
  have hrun := h.run
  have hh := Planner.run_holds hrun (Plan.start_holds h)
  rw [eL, eR] at ht
  have key : ∀ l r, Planner.Holds l r d.final → d.terminal = [] →
      Closed (leftFoot p l) (rightFoot p r) := by
    intro l r hlr he
    rw [he] at ht
    generalize d.final = c at hlr ht
    cases ht with
    | skip _ h2 =>
      obtain ⟨a, b⟩ := hlr
      cases hlast : c.last with
      | none => rw [hlast] at h2; simp [tinyFor] at h2
      | some s =>
        rw [hlast] at h2 b
        cases hc : c.left with
        | true =>
          rw [hc] at a b h2
          exact ⟨s, c.prev, b, a, .inr (.inl h2)⟩
        | false =>
          rw [hc] at a b h2
          exact ⟨c.prev, s, a, b, .inr (.inr h2)⟩
  rcases h.effect with ⟨-, rfl, rfl⟩ | ⟨hlog, hre⟩
  · unfold Plan.log
    rw [Planner.extendBy_append d.l0, Planner.extendBy_append d.r0]
    generalize extendBy d.l0 true d.decided = l at hh
    generalize extendBy d.r0 false d.decided = r at hh
    generalize d.final = c at hh ht key
    generalize d.terminal = T at ht key
    obtain ⟨a, b⟩ := hh
    cases ht with
    | both h1 =>
      cases hc : c.left with
      | true =>
        refine ⟨stepOf (leftFoot p d.l0) (d.sol t1) (terminalTime d.q c),
          stepOf (rightFoot p d.r0) (d.sol t1) (terminalTime d.q c + d.q.nominalTime),
          by simp [extendBy, stepsOf, leftFoot], by simp [extendBy, stepsOf, rightFoot], .inl ?_⟩
        rw [stateFor_leftFoot _ d.l0, stateFor_rightFoot _ d.r0, stateFor_stepOf, stateFor_stepOf]
      | false =>
        refine ⟨stepOf (leftFoot p d.l0) (d.sol t1) (terminalTime d.q c + d.q.nominalTime),
          stepOf (rightFoot p d.r0) (d.sol t1) (terminalTime d.q c),
          by simp [extendBy, stepsOf, leftFoot], by simp [extendBy, stepsOf, rightFoot], .inl ?_⟩
        rw [stateFor_leftFoot _ d.l0, stateFor_rightFoot _ d.r0, stateFor_stepOf, stateFor_stepOf]
    | close h1 h2 =>
      cases hc : c.left with
      | true =>
        rw [hc] at a
        refine ⟨stepOf (leftFoot p d.l0) (stateFor (rightFoot p d.r0) c.prev) (terminalTime d.q c), c.prev,
          by simp [extendBy, stepsOf, leftFoot], by simpa [extendBy, stepsOf, rightFoot] using a, .inl ?_⟩
        exact stateFor_stepOf (leftFoot p d.l0) _ _
      | false =>
        rw [hc] at a
        refine ⟨c.prev, stepOf (rightFoot p d.r0) (stateFor (leftFoot p d.l0) c.prev) (terminalTime d.q c),
          by simpa [extendBy, stepsOf, leftFoot] using a, by simp [extendBy, stepsOf, rightFoot], .inl ?_⟩
        exact (stateFor_stepOf (rightFoot p d.r0) _ _).symm
    | skip h1 h2 =>
      rw [Planner.extendBy_nil, Planner.extendBy_nil]
      exact key l r ⟨a, b⟩ rfl
  · obtain ⟨e1, e2⟩ := List.append_eq_nil_iff.mp hlog
    rw [e1, Planner.extendBy_nil, Planner.extendBy_nil] at hh
    obtain ⟨l, r, g1, g2, g3⟩ := key d.l0 d.r0 hh e2
    change d.l0.steps.getLast? = some l at g1
    change d.r0.steps.getLast? = some r at g2
    obtain ⟨l', r', k1, k2, k⟩ := hre
    rw [g1] at k1; cases k1
    rw [g2] at k2; cases k2
    rcases k with ⟨-, rfl, rfl⟩ | ⟨-, rfl, older, s, k3, rfl⟩ | ⟨-, ⟨older, s, k3, rfl⟩, rfl⟩
    · exact ⟨l, r, g1, g2, g3⟩
    · rw [k3] at g2
      simp at g2; subst g2
      exact ⟨l, ⟨s.position, s.angle, l.impactTime, d.r0.footName⟩, g1, by simp [rightFoot], g3⟩
    · rw [k3] at g1
      simp at g1; subst g1
      exact ⟨⟨s.position, s.angle, r.impactTime, d.l0.footName⟩, r, by simp [leftFoot], g2, g3⟩

/-! ## Uniqueness -/

theorem RestingState.unique {u u' : UState K} (h : RestingState p t0 u) (h' : RestingState p t0 u') : u = u' := by
  unfold RestingState at h h'
  cases hc : p.controller <;> simp only [hc] at h h'
  · obtain ⟨y, z, h1, h2⟩ := h
    obtain ⟨y', z', h1', h2'⟩ := h'
    rw [h1] at h1'
    cases h1'
    rw [h2, h2']
  · rw [h, h']
  · rw [h, h']

theorem StartsFrom.unique {l0 r0 l1 r1 : FootPrint K} (h : StartsFrom p left right t0 l0 r0)
    (h' : StartsFrom p left right t0 l1 r1) : l0 = l1 ∧ r0 = r1 := by
  rcases h with ⟨n, rfl, rfl⟩ | ⟨a, b, u, hu, rfl, rfl⟩
  · rcases h' with ⟨-, rfl, rfl⟩ | ⟨a, b, -⟩
    · exact ⟨rfl, rfl⟩
    · exact absurd ⟨a, b⟩ n
  · rcases h' with ⟨n, -, -⟩ | ⟨-, -, u', hu', rfl, rfl⟩
    · exact absurd ⟨a, b⟩ n
    · rw [hu.unique hu']; exact ⟨rfl, rfl⟩

theorem Retimed.unique {fp f1 f2 : FootPrint K} {t : K} (h1 : Retimed fp t f1) (h2 : Retimed fp t f2) : f1 = f2 := by
  obtain ⟨o, s, e, rfl⟩ := h1
  obtain ⟨o', s', e', rfl⟩ := h2
  rw [e] at e'
  obtain ⟨rfl, hs⟩ := List.append_inj' e' rfl
  cases hs
  rfl

theorem Realigned.unique {l0 r0 l1 r1 l2 r2 : FootPrint K} (h1 : Realigned l0 r0 l1 r1) (h2 : Realigned l0 r0 l2 r2) :
    l1 = l2 ∧ r1 = r2 := by
  obtain ⟨l, r, a, b, h1⟩ := h1
  obtain ⟨l', r', a', b', h2⟩ := h2
  rw [a] at a'; cases a'
  rw [b] at b'; cases b'
  rcases h1 with ⟨c, rfl, rfl⟩ | ⟨c, rfl, c2⟩ | ⟨c, c2, rfl⟩ <;>
  rcases h2 with ⟨e, rfl, rfl⟩ | ⟨e, rfl, e2⟩ | ⟨e, e2, rfl⟩ <;>
  first
  | exact ⟨rfl, rfl⟩
  | exact ⟨rfl, c2.unique e2⟩
  | exact ⟨c2.unique e2, rfl⟩
  | (exfalso; linarith)

theorem PlanOf.unique {left'' right'' : FootPrint K} {d' : Plan K} (hd : 0 ≤ p.dT)
    (h : PlanOf p integ left right t0 t1 left' right' d) (h' : PlanOf p integ left right t0 t1 left'' right'' d')
    (hq : d.q = d'.q) (hsol : d.sol = d'.sol) : d.log = d'.log ∧ left' = left'' ∧ right' = right'' := by
  obtain ⟨q, sol, l0, r0, prev, dec, ter, fin⟩ := d
  obtain ⟨q', sol', l0', r0', prev', dec', ter', fin'⟩ := d'
  simp only at hq hsol
  subst hq hsol
  obtain ⟨b, run, ter1, eff⟩ := h
  have hdq := PlanOf.dT (h := ⟨b, run, ter1, eff⟩)
  obtain ⟨b', run', ter1', eff'⟩ := h'
  simp only at b b' run run' ter1 ter1' eff eff' hdq
  obtain ⟨rfl, rfl⟩ := b.steps.unique b'.steps
  have hprev := b.last.symm.trans b'.last
  cases hprev
  obtain ⟨rfl, rfl⟩ := Planner.run_unique (by rw [hdq]; exact hd) run run'
  have hter : ter = ter' := by
    split_ifs at ter1 ter1' with hT
    · exact Planner.terminal_unique ter1 ter1'
    · rw [ter1, ter1']
  subst hter
  refine ⟨rfl, ?_⟩
  rcases eff with ⟨a, rfl, rfl⟩ | ⟨a, a2⟩ <;> rcases eff' with ⟨c, rfl, rfl⟩ | ⟨c, c2⟩
  · exact ⟨rfl, rfl⟩
  · exact absurd c a
  · exact absurd a c
  · exact a2.unique c2

end Uni.Spec

namespace Uni.Planner
open Spec
variable {K : Type*} [Field K] [LinearOrder K] [Trig K] [IsStrictOrderedRing K]
variable {p : Planner K} {integ : Integrator K} {left right left' right' : FootPrint K} {t0 t1 : K}

/-- The plan of a call that returned true. -/
theorem exists_plan {fuel : Nat} {p' : Planner K} (hp : Timed p) (hL : NonNeg left) (hR : NonNeg right)
    (h : p.computeNewSteps integ fuel left right t0 t1 = .done true p' left' right') :
    ∃ d, PlanOf p integ left right t0 t1 left' right' d := by
  rcases computeNewSteps_done hp.period hp.nominal_nonneg hL hR h with ⟨h, -⟩ | ⟨h, -⟩ | ⟨-, d, h, -⟩
  · cases h
  · cases h
  · exact ⟨d, h⟩

theorem last_begins {q : Planner K} {sol : K → UState K} {l0 r0 : FootPrint K} {prev : Step K}
    (hs : Begins p integ left right t0 t1 q sol l0 r0 prev) :
    (if q.swingLeft then rightFoot p r0 else leftFoot p l0).getLastStep = some prev := by
  rw [← hs.last]; cases q.swingLeft <;> rfl

theorem terminates [FloorSemiring K] (hd : 0 < p.dT) (hn : 0 ≤ p.nominalTime) {fuel : Nat}
    (hf : (⌈(t1 - t0) / p.dT⌉₊ + 1) * (⌈(t1 - t0) / p.dT⌉₊ + 3) < fuel) :
    p.computeNewSteps integ fuel left right t0 t1 ≠ .outOfFuel := by
  rcases computeNewSteps_cases p integ left right t0 t1 with
    ⟨-, q, hq⟩ | ⟨-, -, -, -, hw⟩ | ⟨-, -, -, -, -, q, l0, r0, -, hq⟩ | ⟨-, q, sol, l0, r0, prev, hs, hq⟩
  · rw [hq]; simp
  · rw [hw]; simp
  · rw [hq]; simp
  · rw [hq]
    have e1 : q.dT = p.dT := by rw [hs.eq]
    have e2 : q.initTime = t0 := by rw [hs.eq]
    have e3 : q.endTime = t1 := by rw [hs.eq]
    have e4 : q.nominalTime = p.nominalTime := by rw [hs.eq]
    exact plan_terminates (by rw [e1]; exact hd) (by rw [e2]; exact hs.nonneg) (by rw [e2, e3]; exact hs.lt)
      (by rw [e4]; exact hn) rfl rfl (last_begins hs) fuel (by rw [e1, e2, e3]; exact hf)

theorem diverges (hd : p.dT = 0) (hn : 0 ≤ p.nominalTime) (hne : ¬ (left.steps = [] ∧ right.steps = []))
    (hv : ¬ Refused p integ left right t0 t1) (fuel : Nat) :
    p.computeNewSteps integ fuel left right t0 t1 = .outOfFuel := by
  rcases computeNewSteps_cases p integ left right t0 t1 with
    ⟨h, -⟩ | ⟨-, e1, e2, -⟩ | ⟨h, -⟩ | ⟨-, q, sol, l0, r0, prev, hs, hq⟩
  · exact absurd h hv
  · exact absurd ⟨e1, e2⟩ hne
  · exact absurd h hv
  · rw [hq]
    have e1 : q.dT = p.dT := by rw [hs.eq]
    have e2 : q.initTime = t0 := by rw [hs.eq]
    have e3 : q.endTime = t1 := by rw [hs.eq]
    have e4 : q.nominalTime = p.nominalTime := by rw [hs.eq]
    exact plan_zero (by rw [e1, hd]) (by rw [e4]; exact hn) (by rw [e2, e3]; exact hs.lt.le) (last_begins hs) fuel

theorem succeeds [FloorSemiring K] (hd : 0 < p.dT) (hn : 0 ≤ p.nominalTime) (hv : ¬ Refused p integ left right t0 t1)
    (hb : left.steps = [] ↔ right.steps = [])
    (hub : ∀ w, p.controller = .personFollowing → left.steps = [] → p.ctrl.person.getDesiredPoint t0 ≠ .ub w) {fuel : Nat}
    (hf : (⌈(t1 - t0) / p.dT⌉₊ + 1) * (⌈(t1 - t0) / p.dT⌉₊ + 3) < fuel) :
    ∃ p' left' right', p.computeNewSteps integ fuel left right t0 t1 = .done true p' left' right' := by
  have hfuel := terminates (p := p) (integ := integ) (left := left) (right := right) hd hn hf
  rcases computeNewSteps_cases p integ left right t0 t1 with
    ⟨h, -⟩ | ⟨-, hl, -, h, -⟩ | ⟨h, -⟩ | ⟨-, q, sol, l0, r0, prev, hs, hq⟩
  · exact absurd h hv
  · exfalso
    unfold stateWithoutSteps at h
    split at h
    · rename_i hc
      cases hg : p.ctrl.person.getDesiredPoint t0 with
      | fail => rw [hg] at h; cases h
      | ok r => rw [hg] at h; cases h
      | ub w => exact hub w hc hl hg
    · cases h
  · exact absurd h hv
  · rw [hq] at hfuel ⊢
    have e1 : q.dT = p.dT := by rw [hs.eq]
    have e2 : q.initTime = t0 := by rw [hs.eq]
    have e4 : q.nominalTime = p.nominalTime := by rw [hs.eq]
    rcases plan_run (q := q) (sol := sol) (by rw [e1]; exact hd.le) (by rw [e2]; exact hs.nonneg) (by rw [e4]; exact hn)
      rfl rfl (last_begins hs) fuel with hrun | ⟨log, T, c', b, f, -, -, -, ⟨-, g⟩ | ⟨-, g⟩⟩
    · exact absurd hrun hfuel
    · exact ⟨_, _, _, g⟩
    · rcases align_cases { q with swingLeft := b, firstStep := f } (leftFoot p l0).fp (rightFoot p r0).fp with
        ⟨-, ha⟩ | ⟨l, r, b, l1, r1, -, -, ha, -⟩
      · exfalso
        have hne : l0.steps ≠ [] ∧ r0.steps ≠ [] := by
          rcases hs.steps with ⟨n, rfl, rfl⟩ | ⟨-, -, u, -, rfl, rfl⟩
          · exact ⟨fun h => n ⟨h, hb.mp h⟩, fun h => n ⟨hb.mpr h, h⟩⟩
          · exact ⟨by simp, by simp⟩
        rcases ha with ha | ha
        · exact hne.1 (getLastStep_eq_none ha)
        · exact hne.2 (getLastStep_eq_none ha)
      · exact ⟨_, _, _, g.trans ha⟩

end Uni.Planner

namespace Uni.Planner
open Spec

theorem inFrame_eq (p : Vec2 ℝ) (θ : ℝ) (v : Vec2 ℝ) : inFrame p θ v = p + rot θ v := by
  ext <;> simp [inFrame, rot, cos_real, sin_real] <;> ring

theorem eq_inFrame_rotT (a b : Vec2 ℝ) (θ : ℝ) : b = inFrame a θ (rotT θ (b - a)) := by
  rw [inFrame_eq, rot_rotT]
  ext <;> simp

theorem dist_rotT (θ : ℝ) (a b : Vec2 ℝ) : Spec.dist (rotT θ (a - b)) 0 = Spec.dist a b := by
  rw [← norm_eq_dist, ← norm_eq_dist]
  have : rotT θ (a - b) - 0 = rotT θ (a - b) := by ext <;> simp
  rw [this]
  unfold Vec2.norm
  rw [normSq_rotT]

theorem dist_symm (a b : Vec2 ℝ) : Spec.dist a b = Spec.dist b a := by
  unfold Spec.dist
  congr 1
  ring

theorem within_of_ok {q : Planner ℝ} {l0 r0 : FootPrint ℝ} {left : Bool} {prev : Step ℝ} {u : UState ℝ} {dur t : ℝ}
    (h : q.problem.areConstraintsSatisfied (dataOf (leftFoot q l0) (rightFoot q r0) left prev u dur) = true) :
    WithinBounds q prev left (stepOf (if left then leftFoot q l0 else rightFoot q r0) u t) := by
  rw [Problem.areConstraintsSatisfied_iff] at h
  obtain ⟨h1, h2, h3, h4, h5⟩ := h
  cases left with
  | true =>
    simp only [dataOf, if_true] at h1 h2 h3 h4 h5
    refine ⟨fun m hm => ?_, fun m hm => ?_, fun m hm => ?_, h4, fun m hm => ?_⟩
    · have := h1 m hm
      rwa [dist_rotT] at this
    · exact ⟨_, h2 m hm, by rw [if_pos rfl]; exact eq_inFrame_rotT _ _ _⟩
    · have := h3 m hm
      rw [abs_abs] at this
      simpa [stepOf, leftFoot, rightFoot] using this
    · have := h5 m hm
      rw [dist_rotT] at this
      exact ⟨_, eq_inFrame_rotT _ _ _, this⟩
  | false =>
    simp only [dataOf, if_false, Bool.false_eq_true] at h1 h2 h3 h4 h5
    refine ⟨fun m hm => ?_, fun m hm => ?_, fun m hm => ?_, h4, fun m hm => ?_⟩
    · have := h1 m hm
      rw [dist_rotT, dist_symm] at this
      exact this
    · refine ⟨_, h2 m hm, ?_⟩
      rw [if_neg (by simp)]
      have : (stepOf (rightFoot q r0) u t).angle - q.rightYaw = u.angle := by simp [stepOf, rightFoot]
      simp only [Bool.false_eq_true, if_false]
      rw [this]
      exact eq_inFrame_rotT _ _ _
    · have := h3 m hm
      rw [abs_abs] at this
      simpa [stepOf, leftFoot, rightFoot] using this
    · have := h5 m hm
      rw [dist_rotT] at this
      exact ⟨_, eq_inFrame_rotT _ _ _, this⟩

theorem decided_within {q : Planner ℝ} {sol : ℝ → UState ℝ} {l0 r0 : FootPrint ℝ} {c : Stance ℝ} {e : Landing ℝ}
    (h : Decided q sol (leftFoot q l0) (rightFoot q r0) c e) (hk : e.kind = .optimised) :
    WithinBounds q c.prev e.left e.step := by
  cases h with
  | optimised n m h => exact within_of_ok h.2.2.2.2.1.2.2.2.2
  | parallel n h => cases hk

end Uni.Planner
