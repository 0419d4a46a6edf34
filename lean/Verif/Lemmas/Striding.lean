import Verif.Spec.Forward
import Verif.Lemmas.SearchFirst
import Verif.Lemmas.Track

/-! # A robot under a constant command keeps walking (for C122, C123, C124) -/

set_option autoImplicit false
set_option linter.unusedSectionVars false

namespace Uni
open Spec
namespace Planner

variable {p : Planner ℝ} {integ : Integrator ℝ} {fuel : Nat} {durations : ℝ → ℝ → List ℝ} {garbage : ℝ}
  {left right left' right' : FootPrint ℝ} {t0 t1 T μ : ℝ} {d : Plan ℝ} {cmd : Control ℝ}

/-- What is needed of a constant command: once the unicycle has moved for the time `μ` the step of the foot is not tiny, a step that is
not tiny does not become tiny again, and a step of the given duration, or of that time, is possible. -/
structure Steadily (p : Planner ℝ) (cmd : Control ℝ) (duration μ : ℝ) : Prop where
  controller : p.controller = .direct
  command : p.ctrl.direct.desired = cmd
  limits : WithinLimits p cmd
  step : 0 < p.integratorStep
  period : 0 < p.dT
  slow : p.nominalTime + p.dT ≤ p.maxTime
  small : ∀ (F : Foot ℝ) (fp : FootPrint ℝ), F = leftFoot p fp ∨ F = rightFoot p fp → ∀ l u a b, a ≤ b →
    stateFor F l = track u cmd p.integratorStep a → tinyFor F (some l) (track u cmd p.integratorStep b) = true → b - a < μ
  keeps : ∀ (F : Foot ℝ) (fp : FootPrint ℝ), F = leftFoot p fp ∨ F = rightFoot p fp → ∀ l u a b b', a ≤ b → b ≤ b' →
    stateFor F l = track u cmd p.integratorStep a → tinyFor F (some l) (track u cmd p.integratorStep b) = false → tinyFor F (some l) (track u cmd p.integratorStep b') = false
  ok : ∀ (fl fr : FootPrint ℝ) (left : Bool) (prev : Step ℝ) (u : UState ℝ) (a b dur : ℝ),
    stateFor (if left then rightFoot p fr else leftFoot p fl) prev = track u cmd p.integratorStep a → a ≤ b →
    b - a ≤ max duration μ + p.dT + 3 * p.integratorStep →
    p.problem.areConstraintsSatisfied (dataOf (leftFoot p fl) (rightFoot p fr) left prev (track u cmd p.integratorStep b) dur) = true

/-- The samples of a planner. -/
private theorem sampled {q : Planner ℝ} {sol : ℝ → UState ℝ} {L R : Foot ℝ} {c : Stance ℝ} (hd : 0 < q.dT) :
    (searchFrom q sol L R c).Sampled := by
  have e : ∀ k, (searchFrom q sol L R c).time (k + 1) = q.nextTime ((searchFrom q sol L R c).time k) := fun k =>
    Function.iterate_succ_apply' q.nextTime k c.start
  refine ⟨hd, fun k hk => ?_, fun k hk => ?_⟩
  · rw [e, nextTime]
    replace hk : (searchFrom q sol L R c).time k < q.endTime := hk
    show _ = min ((searchFrom q sol L R c).time k + q.dT) q.endTime
    split_ifs with h
    · rw [min_eq_right h.1.le]
    · rw [min_eq_left (not_lt.mp fun h' => h ⟨h', hk⟩)]
  · rw [e, nextTime, if_neg fun h => absurd h.2 (not_lt.mpr hk)]
    rfl

/-- A robot in the middle of its walk along a line. -/
private structure Striding (p : Planner ℝ) (u : UState ℝ) (cmd : Control ℝ) (σ : ℝ → ℝ) (E t0 t1 T : ℝ) (L R : Foot ℝ) (c : Stance ℝ) : Prop where
  place : ∃ a, stateFor (if c.left then R else L) c.prev = track u cmd p.integratorStep a ∧
    (∀ l, c.last = some l → ∃ b ≤ a, stateFor (if c.left then L else R) l = track u cmd p.integratorStep b) ∧
    ∀ τ, max t0 c.prev.impactTime ≤ τ → τ ≤ t1 → a ≤ σ τ ∧
      |σ τ - a - max 0 (τ - max E c.prev.impactTime)| ≤ 3 * p.integratorStep
  pause : c.pause0 = max t0 c.prev.impactTime - c.prev.impactTime
  offset : 0 ≤ c.offset
  start : max t0 c.prev.impactTime ≤ c.start
  startLt : c.prev.impactTime < c.start ∨ c.prev.impactTime ≤ t0
  startLe : c.start ≤ max (c.prev.impactTime + p.minTime) (t0 + c.offset) + p.dT
  gateNominal : max (c.prev.impactTime + p.minTime) (t0 + c.offset) ≤ max t0 c.prev.impactTime + p.nominalTime
  gateReach : max (c.prev.impactTime + p.minTime) (t0 + c.offset) ≤ max E c.prev.impactTime + T

section
variable {q : Planner ℝ} {sol : ℝ → UState ℝ} {L R : Foot ℝ} {u : UState ℝ} {σ : ℝ → ℝ} {E : ℝ} {c : Stance ℝ}

/-- What is used of the planner during the call, and of the motion. -/
private structure Frame (p q : Planner ℝ) (sol : ℝ → UState ℝ) (L R : Foot ℝ) (u : UState ℝ) (cmd : Control ℝ) (σ : ℝ → ℝ) (E t0 t1 T : ℝ) : Prop where
  timed : Timed p
  same : q = { p with initTime := t0, endTime := t1, ctrl := q.ctrl, swingLeft := q.swingLeft, firstStep := q.firstStep }
  leftIs : ∃ fp, L = leftFoot p fp
  rightIs : ∃ fp, R = rightFoot p fp
  begins : t0 ≤ E
  duration : p.minTime ≤ T
  mono : ∀ a b, t0 ≤ a → a ≤ b → b ≤ t1 → σ a ≤ σ b
  motion : ∀ τ, t0 ≤ τ → τ ≤ t1 → 0 ≤ σ τ ∧ sol τ = track u cmd p.integratorStep (σ τ) ∧ |σ τ - max 0 (τ - E)| ≤ 3 / 2 * p.integratorStep

private theorem Frame.lipschitz (hf : Frame p q sol L R u cmd σ E t0 t1 T) {x y : ℝ} (hx : t0 ≤ x) (hxy : x ≤ y) (hy : y ≤ t1) :
    σ y - σ x ≤ y - x + 3 * p.integratorStep := by
  have h1 := abs_le.mp (hf.motion x hx (hxy.trans hy)).2.2
  have h2 := abs_le.mp (hf.motion y (hx.trans hxy) hy).2.2
  have h3 : max 0 (y - E) ≤ max 0 (x - E) + (y - x) := by
    rcases le_total (y - E) 0 with h | h
    · rw [max_eq_left h]; linarith [le_max_left 0 (x - E)]
    · rw [max_eq_right h]; linarith [le_max_right 0 (x - E)]
  linarith [h1.1, h2.2]

private theorem Frame.swing (hf : Frame p q sol L R u cmd σ E t0 t1 T) :
    ∃ fp, (if c.left then L else R) = leftFoot p fp ∨ (if c.left then L else R) = rightFoot p fp := by
  obtain ⟨fl, hl⟩ := hf.leftIs
  obtain ⟨fr, hr⟩ := hf.rightIs
  cases c.left
  · exact ⟨fr, .inr hr⟩
  · exact ⟨fl, .inl hl⟩

/-- The foot that moves is tiny only if it has little way to go. -/
private theorem small (hw : Steadily p cmd T μ) (hf : Frame p q sol L R u cmd σ E t0 t1 T) {a : ℝ}
    (h2 : ∀ l, c.last = some l → ∃ b ≤ a, stateFor (if c.left then L else R) l = track u cmd p.integratorStep b)
    (h3 : ∀ τ, max t0 c.prev.impactTime ≤ τ → τ ≤ t1 → a ≤ σ τ ∧
      |σ τ - a - max 0 (τ - max E c.prev.impactTime)| ≤ 3 * p.integratorStep) {k : Nat}
    (hk : (searchFrom q sol L R c).time k ≤ t1) (hk0 : max t0 c.prev.impactTime ≤ (searchFrom q sol L R c).time k)
    (ht : (searchFrom q sol L R c).tiny k = true) :
    ∃ b ≤ a, σ ((searchFrom q sol L R c).time k) - b < μ ∧
      (searchFrom q sol L R c).time k < max E c.prev.impactTime + 3 * p.integratorStep + μ := by
  set τ := (searchFrom q sol L R c).time k with hτ
  replace ht : tinyFor (if c.left then L else R) c.last (sol τ) = true := ht
  obtain ⟨-, m2, -⟩ := hf.motion τ ((le_max_left _ _).trans hk0) hk
  obtain ⟨g1, g2⟩ := h3 τ hk0 hk
  cases hl : c.last with
  | none => rw [hl] at ht; cases ht
  | some l =>
    obtain ⟨b, hb, hb'⟩ := h2 l hl
    obtain ⟨fp, hfp⟩ := hf.swing (c := c)
    rw [hl, m2] at ht
    have ht := hw.small _ fp hfp l u b (σ τ) (hb.trans g1) hb' ht
    refine ⟨b, hb, ht, ?_⟩
    have h4 := (abs_le.mp g2).1
    have h5 := le_max_right 0 (τ - max E c.prev.impactTime)
    linarith

private theorem frame_times (hf : Frame p q sol L R u cmd σ E t0 t1 T) :
    q.minTime = p.minTime ∧ q.maxTime = p.maxTime ∧ q.dT = p.dT ∧ q.initTime = t0 ∧ q.endTime = t1 ∧ q.problem = p.problem := by
  have := hf.same
  refine ⟨?_, ?_, ?_, ?_, ?_, ?_⟩ <;> rw [this]

/-- The first sample at which the foot has some way to go is a possible landing. -/
private theorem first_candidate (hw : Steadily p cmd T μ) (hf : Frame p q sol L R u cmd σ E t0 t1 T)
    (hc : Striding p u cmd σ E t0 t1 T L R c) {K : Nat} (hK : (searchFrom q sol L R c).First K)
    (hlt : (searchFrom q sol L R c).time K < t1) :
    (searchFrom q sol L R c).Candidate K ∧
      c.prev.impactTime + (searchFrom q sol L R c).pause K ≤ max t0 c.prev.impactTime + p.dT + waits p μ E t0 c.prev.impactTime := by
  obtain ⟨q1, q2, q3, q4, q5, q6⟩ := frame_times hf
  have hs : (searchFrom q sol L R c).Sampled := sampled (by rw [q3]; exact hw.period)
  have hmt := hf.timed.minTime
  have hdt := hw.period
  have hh := hw.step
  set S := searchFrom q sol L R c with hS
  have eend : S.endTime = t1 := q5
  have edT : S.dT = p.dT := q3
  have eprev : S.prevTime = c.prev.impactTime := rfl
  have epause : S.pause0 = max t0 c.prev.impactTime - c.prev.impactTime := hc.pause
  have e0 : S.time 0 = c.start := rfl
  have hgate : ∀ k, S.Gate k ↔ p.minTime ≤ S.time k - c.prev.impactTime ∧ t0 + c.offset < S.time k := by
    intro k
    show q.minTime ≤ _ ∧ q.initTime + c.offset < _ ↔ _
    rw [q1, q4]; rfl
  obtain ⟨G, g1, g2, g3, g4, g5, g6, g7⟩ := hK.net hs
  have hstart : ∀ k, max t0 c.prev.impactTime ≤ S.time k := fun k => hc.start.trans (by
    rw [← e0]; exact hs.strict.monotone (Nat.zero_le k))
  -- the first sample that is not too early
  have hG1 : S.time G ≤ max (c.prev.impactTime + p.minTime) (t0 + c.offset) + p.dT := by
    cases G with
    | zero => rw [e0]; exact hc.startLe
    | succ j =>
      have hj := g3 j (Nat.lt_succ_self j)
      rw [hgate] at hj
      have h1 := hs.le_succ j
      rw [edT] at h1
      rcases not_and_or.mp hj with h | h
      · linarith [not_le.mp h, le_max_left (c.prev.impactTime + p.minTime) (t0 + c.offset)]
      · linarith [not_lt.mp h, le_max_right (c.prev.impactTime + p.minTime) (t0 + c.offset)]
  have hG2 : max t0 c.prev.impactTime < S.time G := by
    have h1 := (hgate G).mp g2
    have h2 := hc.offset
    refine max_lt (by linarith [h1.2]) ?_
    rcases hc.startLt with h | h
    · have := hs.strict.monotone (Nat.zero_le G)
      rw [e0] at this; linarith
    · linarith [h1.2]
  have hnet : S.net K = S.time G - max t0 c.prev.impactTime := by
    rw [g5 (by rw [eend]; exact hlt), epause, eprev]; ring
  -- the last sample at which it has none
  obtain ⟨a, p1, p2, p3⟩ := hc.place
  have hlast : G < K → ∃ b ≤ a, σ (S.time (K - 1)) - b < μ ∧
      S.time (K - 1) < max E c.prev.impactTime + 3 * p.integratorStep + μ := fun hGK =>
    small hw hf p2 p3 ((hs.strict.monotone (show K - 1 ≤ K by omega)).trans hlt.le) (hstart _) (g6 (K - 1) (by omega) (by omega))
  obtain ⟨r1, r2⟩ := p3 (S.time K) (hstart K) hlt.le
  have hK0 : t0 ≤ S.time K := (le_max_left _ _).trans (hstart K)
  have hlen : σ (S.time K) - a ≤ max T μ + p.dT + 3 * p.integratorStep := by
    rcases Nat.lt_or_ge G K with hGK | hGK
    · obtain ⟨b, hb, hsmall, -⟩ := hlast hGK
      have hlip := hf.lipschitz (x := S.time (K - 1)) (y := S.time K) ((le_max_left _ _).trans (hstart _))
        (hs.strict.monotone (by omega)) hlt.le
      have hstep := hs.le_succ (K - 1)
      rw [Nat.sub_add_cancel (by omega), edT] at hstep
      linarith [le_max_right T μ]
    · obtain rfl : G = K := by omega
      have h1 := (abs_le.mp r2).2
      have h2 := hc.gateReach
      have h3 := hf.duration
      have h4 : max 0 (S.time G - max E c.prev.impactTime) ≤ T + p.dT := max_le (by linarith) (by linarith)
      linarith [le_max_left T μ]
  refine ⟨⟨hK.gate, hK.large, ?_, ?_, ?_⟩, ?_⟩
  · rintro (h | h)
    · replace h : p.maxTime < S.net K := by rw [← q2]; exact h
      rw [hnet] at h
      linarith [hc.gateNominal, hw.slow]
    · rw [eend] at h; exact absurd h hlt.ne
  · rw [hnet]; linarith
  · show q.problem.areConstraintsSatisfied (dataOf L R c.left c.prev (sol (S.time K)) (S.net K)) = true
    rw [(hf.motion (S.time K) hK0 hlt.le).2.1]
    obtain ⟨fl, hfl⟩ := hf.leftIs
    obtain ⟨fr, hfr⟩ := hf.rightIs
    rw [q6]
    rw [hfl, hfr] at p1 ⊢
    exact hw.ok fl fr c.left c.prev u a _ _ p1 r1 hlen
  · rw [g4, epause, edT]
    have h0 : 0 ≤ waits p μ E t0 c.prev.impactTime := le_max_left _ _
    rcases Nat.lt_or_ge G K with hGK | hGK
    · obtain ⟨b, -, -, htime⟩ := hlast hGK
      have h1 := g7 (K - 1) (by omega) (by omega) ((hs.strict (show K - 1 < K by omega)).trans (by rw [eend]; exact hlt))
      rw [edT] at h1
      have h2 : ((K - G : Nat) : ℝ) = ((K - 1 - G : Nat) : ℝ) + 1 := by exact_mod_cast (show K - G = K - 1 - G + 1 by omega)
      have h3 : μ + 3 * p.integratorStep + max E c.prev.impactTime - max t0 c.prev.impactTime ≤
        waits p μ E t0 c.prev.impactTime := le_max_right _ _
      rw [h2, add_mul, one_mul]
      linarith
    · obtain rfl : G = K := by omega
      simp only [Nat.sub_self, Nat.cast_zero, zero_mul]
      linarith

private theorem keeps_large (hw : Steadily p cmd T μ) (hf : Frame p q sol L R u cmd σ E t0 t1 T)
    (hc : Striding p u cmd σ E t0 t1 T L R c) (j k : Nat) (hjk : j ≤ k)
    (hk : (searchFrom q sol L R c).time k ≤ (searchFrom q sol L R c).endTime) (ht : (searchFrom q sol L R c).tiny j = false) :
    (searchFrom q sol L R c).tiny k = false := by
  obtain ⟨q1, q2, q3, q4, q5, q6⟩ := frame_times hf
  have hs : (searchFrom q sol L R c).Sampled := sampled (by rw [q3]; exact hw.period)
  set S := searchFrom q sol L R c with hS
  replace hk : S.time k ≤ t1 := by rw [← q5]; exact hk
  have hstart : ∀ k, max t0 c.prev.impactTime ≤ S.time k := fun k => hc.start.trans (by
    rw [show c.start = S.time 0 from rfl]; exact hs.strict.monotone (Nat.zero_le k))
  have hle := hs.strict.monotone hjk
  have hj0 := (le_max_left t0 c.prev.impactTime).trans (hstart j)
  obtain ⟨a, p1, p2, p3⟩ := hc.place
  replace ht : tinyFor (if c.left then L else R) c.last (sol (S.time j)) = false := ht
  show tinyFor (if c.left then L else R) c.last (sol (S.time k)) = false
  cases hl : c.last with
  | none => rfl
  | some l =>
    obtain ⟨b, hb, hb'⟩ := p2 l hl
    have hm := hf.mono _ _ hj0 hle hk
    obtain ⟨fp, hfp⟩ := hf.swing (c := c)
    rw [hl, (hf.motion _ hj0 (hle.trans hk)).2.1] at ht
    rw [(hf.motion _ (hj0.trans hle) hk).2.1]
    exact hw.keeps _ fp hfp l u b _ _ (hb.trans (p3 _ (hstart j) (hle.trans hk)).1) hm hb' ht

/-- If nothing is decided before the end, the end is near. -/
private theorem end_near (hw : Steadily p cmd T μ) (hf : Frame p q sol L R u cmd σ E t0 t1 T)
    (hc : Striding p u cmd σ E t0 t1 T L R c)
    (hno : ∀ k, (searchFrom q sol L R c).Gate k → (searchFrom q sol L R c).time k < t1 → (searchFrom q sol L R c).tiny k = true)
    (hex : ∃ n, t1 ≤ (searchFrom q sol L R c).time n) :
    t1 ≤ max t0 c.prev.impactTime + p.nominalTime + p.dT + waits p μ E t0 c.prev.impactTime := by
  obtain ⟨q1, q2, q3, q4, q5, q6⟩ := frame_times hf
  have hs : (searchFrom q sol L R c).Sampled := sampled (by rw [q3]; exact hw.period)
  have hn := hf.timed.nominal_nonneg
  have hdt := hw.period
  set S := searchFrom q sol L R c with hS
  have edT : S.dT = p.dT := q3
  have h0 : 0 ≤ waits p μ E t0 c.prev.impactTime := le_max_left _ _
  have hgn := hc.gateNominal
  have hstart : ∀ k, max t0 c.prev.impactTime ≤ S.time k := fun k => hc.start.trans (by
    rw [show c.start = S.time 0 from rfl]; exact hs.strict.monotone (Nat.zero_le k))
  classical
  have e1 := Nat.find_spec hex
  rcases Nat.eq_zero_or_pos (Nat.find hex) with hz | hz
  · rw [hz, show S.time 0 = c.start from rfl] at e1
    linarith [hc.startLe]
  · obtain ⟨k, hk⟩ : ∃ k, Nat.find hex = k + 1 := ⟨Nat.find hex - 1, by omega⟩
    have e2 : S.time k < t1 := not_le.mp (Nat.find_min hex (by omega))
    rw [hk] at e1
    have e3 := hs.le_succ k
    rw [edT] at e3
    by_cases hg : S.Gate k
    · obtain ⟨a, p1, p2, p3⟩ := hc.place
      obtain ⟨b, -, -, h4⟩ := small hw hf p2 p3 e2.le (hstart k) (hno k hg e2)
      have h3 : μ + 3 * p.integratorStep + max E c.prev.impactTime - max t0 c.prev.impactTime ≤
        waits p μ E t0 c.prev.impactTime := le_max_right _ _
      linarith
    · have hg' : ¬ (q.minTime ≤ S.time k - c.prev.impactTime ∧ q.initTime + c.offset < S.time k) := hg
      rw [q1, q4] at hg'
      rcases not_and_or.mp hg' with h | h
      · linarith [not_le.mp h, le_max_left (c.prev.impactTime + p.minTime) (t0 + c.offset)]
      · linarith [not_lt.mp h, le_max_right (c.prev.impactTime + p.minTime) (t0 + c.offset)]

/-- What is decided in the middle of the walk, and what it means that nothing is. -/
private theorem stride (hw : Steadily p cmd T μ) (hf : Frame p q sol L R u cmd σ E t0 t1 T) (hc : Striding p u cmd σ E t0 t1 T L R c) :
    (∀ e, Decided q sol L R c e → (e.kind = .optimised ∧ e.step.impactTime < t1 ∨ e.kind = .parallel ∧ e.step.impactTime = t1) ∧
      e.step.impactTime ≤ max t0 c.prev.impactTime + p.maxTime + p.dT + waits p μ E t0 c.prev.impactTime) ∧
    ((searchFrom q sol L R c).Exhausted →
      t1 ≤ max t0 c.prev.impactTime + p.nominalTime + p.dT + waits p μ E t0 c.prev.impactTime) := by
  obtain ⟨q1, q2, q3, q4, q5, q6⟩ := frame_times hf
  have hs : (searchFrom q sol L R c).Sampled := sampled (by rw [q3]; exact hw.period)
  have eend : (searchFrom q sol L R c).endTime = t1 := q5
  have hslow := hw.slow
  have hdt := hw.period
  by_cases hex : ∃ k, (searchFrom q sol L R c).Gate k ∧ (searchFrom q sol L R c).time k < t1 ∧ (searchFrom q sol L R c).tiny k = false
  · obtain ⟨k, k1, k2, k3⟩ := hex
    obtain ⟨K, hKk, hK⟩ := Search.exists_first k1 k3
    have hlt : (searchFrom q sol L R c).time K < t1 := (hs.strict.monotone hKk).trans_lt k2
    obtain ⟨hcand, hpause⟩ := first_candidate hw hf hc hK hlt
    obtain ⟨a1, a2, a3⟩ := hK.settles hs hcand (fun j k h1 h2 _ h4 => keeps_large hw hf hc j k h1 h2 h4) (by rw [eend]; exact hlt)
    refine ⟨fun e he => ?_, fun h => absurd h a2⟩
    cases he with
    | optimised n m h =>
      have hm : (searchFrom q sol L R c).time m < t1 := by
        have := (h.1 m h.2.2.2.1).1
        rw [eend] at this
        refine lt_of_le_of_ne this fun he => h.2.2.2.2.1.2.2.1 (.inr (by rw [eend]; exact he))
      refine ⟨.inl ⟨rfl, hm⟩, ?_⟩
      have h2 := (a3 n m h).2
      rw [show (searchFrom q sol L R c).prevTime = c.prev.impactTime from rfl,
        show (searchFrom q sol L R c).maxTime = p.maxTime from q2] at h2
      show (searchFrom q sol L R c).time m ≤ _
      linarith
    | parallel n h => exact absurd h (a1 n)
  · have hno : ∀ k, (searchFrom q sol L R c).Gate k → (searchFrom q sol L R c).time k < t1 → (searchFrom q sol L R c).tiny k = true := by
      intro k h1 h2
      by_contra h3
      exact hex ⟨k, h1, h2, by simpa using h3⟩
    obtain ⟨b1, b2⟩ := Search.none_before (s := searchFrom q sol L R c) (by rw [eend]; exact hno)
    refine ⟨fun e he => ?_, fun ⟨n, _, hn⟩ => end_near hw hf hc hno ⟨n, by rw [eend] at hn; exact hn.le⟩⟩
    cases he with
    | optimised n m h => exact absurd h (b1 n m)
    | parallel n h =>
      have ht := b2 n h
      rw [eend] at ht
      have hnear := end_near hw hf hc hno ⟨n, ht.ge⟩
      refine ⟨.inr ⟨rfl, ht⟩, ?_⟩
      show (searchFrom q sol L R c).time n ≤ _
      rw [ht]; linarith

/-- After a landing chosen by the optimisation the walk goes on. -/
private theorem stride_on (hw : Steadily p cmd T μ) (hf : Frame p q sol L R u cmd σ E t0 t1 T) (hc : Striding p u cmd σ E t0 t1 T L R c)
    {e : Landing ℝ} (he : Decided q sol L R c e) (hk : e.kind = .optimised) (hlt : e.step.impactTime < t1) :
    Striding p u cmd σ E t0 t1 T L R (c.next q e.step) := by
  obtain ⟨q1, q2, q3, q4, q5, q6⟩ := frame_times hf
  obtain ⟨f1, -, f3, f4, -⟩ := decided_facts he
  have hs : (searchFrom q sol L R c).Sampled := sampled (by rw [q3]; exact hw.period)
  have hmt := hf.timed.minTime
  have hnom := hf.timed.nominal
  have hdt := hw.period
  have hE := hf.begins
  have hT := hf.duration
  rw [q4] at f4
  rw [q1] at f3
  have hoff := hc.offset
  have ht0 : t0 ≤ e.step.impactTime := by linarith
  have hprev : c.prev.impactTime ≤ e.step.impactTime := by linarith
  have hmax : max t0 e.step.impactTime = e.step.impactTime := max_eq_right ht0
  obtain ⟨a, p1, p2, p3⟩ := hc.place
  obtain ⟨m1, m2, m3⟩ := hf.motion _ ht0 hlt.le
  have hstate : stateFor (if c.left then L else R) e.step = sol e.step.impactTime := by
    cases he with
    | optimised n m h => exact state_step _ _ _
    | parallel n h => cases hk
  have hnext : q.nextTime e.step.impactTime ≤ e.step.impactTime + p.dT ∧ e.step.impactTime < q.nextTime e.step.impactTime := by
    rw [nextTime, q3, q5]
    split_ifs with h
    · exact ⟨h.1.le, h.2⟩
    · exact ⟨le_rfl, by linarith⟩
  have hpt : (c.next q e.step).prev.impactTime = e.step.impactTime := rfl
  constructor
  · refine ⟨σ e.step.impactTime, ?_, ?_, ?_⟩
    · show stateFor (if (!c.left) then R else L) e.step = _
      rw [← m2, ← hstate]
      cases c.left <;> rfl
    · intro l hl
      obtain rfl : c.prev = l := Option.some.inj hl
      refine ⟨a, (p3 _ (max_le ht0 hprev) hlt.le).1, ?_⟩
      rw [← p1]
      show stateFor (if (!c.left) then L else R) c.prev = _
      cases c.left <;> rfl
    · intro τ h1 h2
      rw [hpt, hmax] at h1
      rw [hpt]
      refine ⟨hf.mono _ _ ht0 h1 h2, ?_⟩
      have n3 := abs_le.mp (hf.motion τ (ht0.trans h1) h2).2.2
      have m3 := abs_le.mp m3
      have hid : max 0 (τ - max E e.step.impactTime) = max 0 (τ - E) - max 0 (e.step.impactTime - E) := by
        rcases le_total e.step.impactTime E with h | h
        · rw [max_eq_left h, max_eq_left (show e.step.impactTime - E ≤ 0 by linarith), sub_zero]
        · rw [max_eq_right h, max_eq_right (show 0 ≤ e.step.impactTime - E by linarith),
            max_eq_right (show 0 ≤ τ - e.step.impactTime by linarith), max_eq_right (show 0 ≤ τ - E by linarith)]
          ring
      rw [hid, abs_le]
      constructor <;> linarith [n3.1, n3.2, m3.1, m3.2]
  · rw [hpt, hmax, sub_self]; rfl
  · exact le_rfl
  · rw [hpt, hmax]; exact hnext.2.le
  · exact .inl hnext.2
  · rw [hpt]
    show q.nextTime e.step.impactTime ≤ _
    have := le_max_left (e.step.impactTime + p.minTime) (t0 + (c.next q e.step).offset)
    linarith [hnext.1]
  · rw [hpt, hmax]
    refine max_le (by linarith) ?_
    show t0 + 0 ≤ _
    linarith [hf.timed.nominal_nonneg]
  · rw [hpt]
    refine max_le (by linarith [le_max_right E e.step.impactTime]) ?_
    show t0 + 0 ≤ _
    linarith [le_max_left E e.step.impactTime]

/-- Nothing is decided after the end. -/
private theorem nothing_after (hd : 0 < q.dT) (h : q.endTime < c.start) {e : Landing ℝ} : ¬ Decided q sol L R c e := by
  have hs : (searchFrom q sol L R c).Sampled := sampled hd
  have hk : ∀ k, ¬ (searchFrom q sol L R c).time k ≤ q.endTime := fun k hk => by
    have := hs.strict.monotone (Nat.zero_le k)
    rw [show (searchFrom q sol L R c).time 0 = c.start from rfl] at this
    linarith
  intro he
  cases he with
  | optimised n m h => exact hk n h.2.1
  | parallel n h => exact hk n h.2.1

/-- The whole walk. -/
private theorem strides (hw : Steadily p cmd T μ) (hf : Frame p q sol L R u cmd σ E t0 t1 T) {c' : Stance ℝ} {log : List (Landing ℝ)}
    (h : Run q sol L R c log c') : (Striding p u cmd σ E t0 t1 T L R c ∨ t1 < c.start ∧ c.prev.impactTime = t1) →
    (∀ e ∈ log, e.kind = .optimised ∨ e.kind = .parallel ∧ e.step.impactTime = t1) ∧
    Along (fun prev e => e.step.impactTime ≤ max t0 prev.impactTime + p.maxTime + p.dT + waits p μ E t0 prev.impactTime) c.prev log ∧
    t1 ≤ max t0 c'.prev.impactTime + p.nominalTime + p.dT + waits p μ E t0 c'.prev.impactTime := by
  obtain ⟨q1, q2, q3, q4, q5, q6⟩ := frame_times hf
  have hd : 0 < q.dT := by rw [q3]; exact hw.period
  induction h with
  | stop c h =>
    rintro (hc | ⟨hc, he⟩)
    · exact ⟨by simp, trivial, (stride hw hf hc).2 h⟩
    · refine ⟨by simp, trivial, ?_⟩
      have h0 : 0 ≤ waits p μ E t0 c.prev.impactTime := le_max_left _ _
      linarith [le_max_right t0 c.prev.impactTime, hf.timed.nominal_nonneg, hw.period]
  | land c e log c' he hrest ih =>
    rintro (hc | ⟨hc, -⟩)
    · obtain ⟨k1, k2⟩ := (stride hw hf hc).1 e he
      have hnext : Striding p u cmd σ E t0 t1 T L R (c.next q e.step) ∨
          t1 < (c.next q e.step).start ∧ (c.next q e.step).prev.impactTime = t1 := by
        rcases k1 with ⟨a, b⟩ | ⟨-, b⟩
        · exact .inl (stride_on hw hf hc he a b)
        · refine .inr ⟨?_, b⟩
          show t1 < q.nextTime e.step.impactTime
          rw [b, nextTime, if_neg (fun h => absurd h.2 (by rw [q5]; exact lt_irrefl _))]
          linarith
      obtain ⟨i1, i2, i3⟩ := ih hnext
      refine ⟨fun x hx => ?_, ⟨k2, i2⟩, i3⟩
      rcases List.mem_cons.mp hx with rfl | hx
      · exact k1.imp (fun h => h.1) id
      · exact i1 x hx
    · exact absurd he (nothing_after hd (by rw [q5]; exact hc))

end

/-- The situation at the beginning. -/
private theorem starts (hp : Timed p) (hc : p.controller = .direct) (hdT : 0 ≤ p.dT) (hpar : p.ctrl.direct.desired.lateral = 0 ∨ FeetParallel p left right)
    (hd : PlanOf p integ left right t0 t1 left' right' d) {u : UState ℝ} {σ : ℝ → ℝ}
    (hu : InitialState p (leftFoot p left) (rightFoot p right) t0 left.steps.getLast? right.steps.getLast? u)
    (hn : NotAhead p left right (track u cmd p.integratorStep))
    (hmot : ∀ τ, t0 ≤ τ → τ ≤ t1 → 0 ≤ σ τ ∧
        |σ τ - max 0 (τ - executedFrom p t0 (decide (¬ (left.steps = [] ∧ right.steps = []))) d.q.firstStep)| ≤ 3 / 2 * p.integratorStep)
    (hh : 0 < p.integratorStep) :
    Striding p u cmd σ (executedFrom p t0 (decide (¬ (left.steps = [] ∧ right.steps = []))) d.q.firstStep) t0 t1
      (if left.steps = [] ∧ right.steps = [] then p.nominalTime else p.minTime) d.left d.right d.start := by
  set E := executedFrom p t0 (decide (¬ (left.steps = [] ∧ right.steps = []))) d.q.firstStep with hE
  obtain ⟨f1, f2, -, -⟩ := foot_eq hd
  have hprev : d.start.prev.impactTime ≤ t0 := hd.begins.prevTime
  have hE0 : t0 ≤ E := le_max_left _ _
  have m1 : max t0 d.start.prev.impactTime = t0 := max_eq_left hprev
  have m2 : max E d.start.prev.impactTime = E := max_eq_left (hprev.trans hE0)
  have hbase := start_base hc hpar hd hu
  have hoff : d.start.offset = if d.q.firstStep then p.nominalTime else 0 := by
    show (if d.q.firstStep then d.q.nominalTime else 0) = _
    rw [hd.nominalTime]
  have hinit : d.q.initTime = t0 := hd.initTime
  have hnn := hp.nominal_nonneg
  have hoff0 : 0 ≤ d.start.offset := by rw [hoff]; split_ifs <;> linarith
  have hoff1 : d.start.offset ≤ p.nominalTime := by rw [hoff]; split_ifs <;> linarith
  constructor
  · refine ⟨0, ?_, ?_, ?_⟩
    · rw [track_zero hh]; exact hbase
    · intro l hl
      replace hl : (if d.q.swingLeft then d.l0 else d.r0).steps.getLast? = some l := hl
      show ∃ b ≤ 0, stateFor (if d.q.swingLeft then d.left else d.right) l = _
      have hlast := hd.begins.last
      rcases hd.begins.steps with ⟨-, e1, e2⟩ | ⟨e1, e2, w, hw, e3, e4⟩
      · rw [e1, e2] at hl
        cases hsw : d.q.swingLeft <;> simp only [hsw, Bool.false_eq_true, if_false, if_true] at hl ⊢
        · obtain ⟨s, h1, h2⟩ := hn.2 l hl
          exact ⟨s, h1, by rw [f2]; exact h2⟩
        · obtain ⟨s, h1, h2⟩ := hn.1 l hl
          exact ⟨s, h1, by rw [f1]; exact h2⟩
      · refine ⟨0, le_rfl, ?_⟩
        rw [track_zero hh]
        rw [e3, e4] at hlast hl
        cases hsw : d.q.swingLeft <;>
          simp only [hsw, Bool.false_eq_true, if_false, if_true, List.getLast?_singleton, Option.some.injEq] at hlast hl hbase ⊢
        · rw [← hlast, f1, state_step] at hbase
          rw [← hl, f2, state_step, hbase]
        · rw [← hlast, f2, state_step] at hbase
          rw [← hl, f1, state_step, hbase]
    · intro τ h1 h2
      rw [m1] at h1
      rw [m2, sub_zero]
      obtain ⟨a, b⟩ := hmot τ h1 h2
      exact ⟨a, b.trans (by linarith)⟩
  · rw [m1]; show d.q.initTime - d.prev.impactTime = t0 - d.prev.impactTime; rw [hinit]
  · exact hoff0
  · rw [m1]; show t0 ≤ d.q.initTime; rw [hinit]
  · exact .inr hprev
  · show d.q.initTime ≤ _
    rw [hinit]
    linarith [le_max_right (d.start.prev.impactTime + p.minTime) (t0 + d.start.offset)]
  · rw [m1]
    exact max_le (by linarith [hp.nominal]) (by linarith)
  · rw [m2]
    have hT : p.minTime ≤ if left.steps = [] ∧ right.steps = [] then p.nominalTime else p.minTime := by
      split_ifs
      exacts [hp.nominal, le_rfl]
    refine max_le (by linarith) ?_
    rw [hoff]
    cases hfs : d.q.firstStep with
    | false => simp only [Bool.false_eq_true, if_false]; linarith [hp.minTime]
    | true =>
      simp only [if_true]
      by_cases he : left.steps = [] ∧ right.steps = []
      · rw [if_pos he]; linarith
      · rw [if_neg he]
        have : t0 + p.nominalTime - p.minTime ≤ E := by
          rw [hE, hfs]
          simp only [executedFrom, he, not_false_eq_true, decide_true, Bool.and_true, if_true]
          exact le_max_right _ _
        linarith

/-- The robot keeps walking. -/
theorem steadily_walks (hp : Timed p) (hL : NonNeg left) (hR : NonNeg right)
    (hw : Steadily p cmd (if left.steps = [] ∧ right.steps = [] then p.nominalTime else p.minTime) μ)
    (hpar : cmd.lateral = 0 ∨ FeetParallel p left right) (hs : FixedStep durations)
    (hi : ∀ q u a b, q.controller = .direct → integ q u a b = euler durations garbage q u a b) {p' : Planner ℝ}
    (h : p.computeNewSteps integ fuel left right t0 t1 = .done true p' left' right') :
    ∃ d u start, PlanOf p integ left right t0 t1 left' right' d ∧
      InitialState p (leftFoot p left) (rightFoot p right) t0 left.steps.getLast? right.steps.getLast? u ∧
      start = executedFrom p t0 (decide (¬ (left.steps = [] ∧ right.steps = []))) d.q.firstStep ∧
      (NotAhead p left right (track u cmd p.integratorStep) → KeepsWalking p μ start t0 t1 d) := by
  obtain ⟨d, hd⟩ := exists_plan hp hL hR h
  obtain ⟨u, hu, σ, hmono, hdr⟩ := constant_driven hw.controller (by rw [hw.command]; exact hw.limits) hs hw.step hi hd
  refine ⟨d, u, _, hd, hu, rfl, fun hn => ?_⟩
  have hmot : ∀ τ, t0 ≤ τ → τ ≤ t1 → 0 ≤ σ τ ∧ d.sol τ = track u cmd p.integratorStep (σ τ) ∧
      |σ τ - max 0 (τ - executedFrom p t0 (decide (¬ (left.steps = [] ∧ right.steps = []))) d.q.firstStep)| ≤
        3 / 2 * p.integratorStep := by
    intro τ a b
    obtain ⟨⟨m, r, r0, r1, e, hr⟩, hb⟩ := hdr τ a b
    refine ⟨by rw [hr]; exact add_nonneg (mul_nonneg (Nat.cast_nonneg _) hw.step.le) r0, ?_, hb⟩
    rw [e, hw.command, hr, drive_track hw.step m r0 r1]
  have hq := hd.begins.eq
  have hf : Frame p d.q d.sol d.left d.right u cmd σ (executedFrom p t0 (decide (¬ (left.steps = [] ∧ right.steps = []))) d.q.firstStep) t0 t1
      (if left.steps = [] ∧ right.steps = [] then p.nominalTime else p.minTime) := by
    refine ⟨hp, hq, ⟨d.l0, ?_⟩, ⟨d.r0, ?_⟩, le_max_left _ _, ?_, hmono, hmot⟩
    · show leftFoot d.q d.l0 = _; rw [hq]; rfl
    · show rightFoot d.q d.r0 = _; rw [hq]; rfl
    · split_ifs
      exacts [hp.nominal, le_rfl]
  exact strides hw hf hd.run (.inl (starts hp hw.controller hw.period.le (by rw [hw.command]; exact hpar) hd hu hn
    (fun τ a b => ⟨(hmot τ a b).1, (hmot τ a b).2.2⟩) hw.step))

end Planner
end Uni
