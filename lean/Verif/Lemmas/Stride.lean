import Verif.Spec.Stride
import Verif.Lemmas.Executed
import Verif.Props.Settings

/-! # Lemmas for `Verif.Props.Stride` -/

set_option autoImplicit false
set_option linter.unusedSectionVars false

namespace Uni.Spec
variable {K : Type} [Field K] [LinearOrder K] [IsStrictOrderedRing K]
variable {R : Vec2 K × K → Vec2 K × K → Prop} {A B : List (Step K)} {e prev : Step K}

/-! ## Adding steps -/

theorem Paired.swap (h : Paired R A B) : Paired (fun x y => R y x) B A :=
  fun i j l r hl hr h1 h2 => h j i r l hr hl h2 h1

theorem Paired.snoc_left (h : Paired R A B) (hp : B.getLast? = some prev) (hB : ∀ x ∈ B, x.impactTime ≤ prev.impactTime)
    (ht : prev.impactTime < e.impactTime) (hR : R (e.position, e.angle) (prev.position, prev.angle)) : Paired R (A ++ [e]) B := by
  intro i j l r hl hr h1 h2
  rcases Nat.lt_or_ge i A.length with hi | hi
  · rw [List.getElem?_append_left hi] at hl
    refine h i j l r hl hr (fun s hs => h1 s ?_) h2
    rw [List.getElem?_append_left (List.getElem?_eq_some_iff.mp hs).1]; exact hs
  · have hi' := (List.getElem?_eq_some_iff.mp hl).1
    simp only [List.length_append, List.length_singleton] at hi'
    obtain rfl : i = A.length := by omega
    simp only [List.getElem?_append_right (le_refl _), Nat.sub_self, List.getElem?_cons_zero, Option.some.injEq] at hl
    subst hl
    have hj := (List.getElem?_eq_some_iff.mp hr).1
    cases hs : B[j + 1]? with
    | some s =>
      exact absurd ((h2 s hs).trans_le (hB s (List.mem_of_getElem? hs))) (lt_asymm ht)
    | none =>
      rw [List.getElem?_eq_none_iff] at hs
      obtain rfl : j = B.length - 1 := by omega
      rw [← List.getLast?_eq_getElem?, hp] at hr
      cases hr
      exact hR

theorem Paired.snoc_right (h : Paired R A B) (hp : A.getLast? = some prev) (hA : ∀ x ∈ A, x.impactTime ≤ prev.impactTime)
    (ht : prev.impactTime < e.impactTime) (hR : R (prev.position, prev.angle) (e.position, e.angle)) : Paired R A (B ++ [e]) :=
  (h.swap.snoc_left hp hA ht hR).swap

theorem paired_singletons {l r : Step K} (h : R (l.position, l.angle) (r.position, r.angle)) : Paired R [l] [r] := by
  intro i j a b ha hb _ _
  have hi := (List.getElem?_eq_some_iff.mp ha).1
  have hj := (List.getElem?_eq_some_iff.mp hb).1
  simp only [List.length_singleton, Nat.lt_one_iff] at hi hj
  subst hi hj
  cases ha
  cases hb
  exact h

/-- A landing is related with the step the robot stands on. -/
def Relates (R : Vec2 K × K → Vec2 K × K → Prop) (s : Step K) (e : Landing K) : Prop :=
  if e.left then R (e.step.position, e.step.angle) (s.position, s.angle) else R (s.position, s.angle) (e.step.position, e.step.angle)

theorem paired_extend {m : K} (hm : 0 < m) (log : List (Landing K)) : ∀ (b : Bool) (A B : List (Step K)) (prev : Step K), Alternates b log →
    Along (Relates R) prev log → Along (fun s e => s.impactTime + m ≤ e.step.impactTime) prev log →
    (if b then B else A).getLast? = some prev → (∀ x ∈ A, x.impactTime ≤ prev.impactTime) → (∀ x ∈ B, x.impactTime ≤ prev.impactTime) →
    Paired R A B → Paired R (A ++ stepsOf true log) (B ++ stepsOf false log) := by
  induction log with
  | nil => intro b A B prev _ _ _ _ _ _ h; simpa [stepsOf] using h
  | cons e es ih =>
    intro b A B prev ha hr hg hl hA hB h
    obtain ⟨rfl, ha⟩ := ha
    obtain ⟨r1, r2⟩ := hr
    obtain ⟨g1, g2⟩ := hg
    unfold Relates at r1
    have hlt : prev.impactTime < e.step.impactTime := (lt_add_of_pos_right _ hm).trans_le g1
    cases he : e.left with
    | true =>
      rw [he] at ha hl r1
      simp only [if_true] at r1 hl
      have := ih false (A ++ [e.step]) B e.step ha r2 g2 (by simp)
        (by intro x hx; rcases List.mem_append.mp hx with hx | hx
            · exact (hA x hx).trans hlt.le
            · simp at hx; rw [hx])
        (fun x hx => (hB x hx).trans hlt.le) (h.snoc_left hl hB hlt r1)
      simpa [stepsOf, he] using this
    | false =>
      rw [he] at ha hl r1
      simp only [if_false, Bool.false_eq_true] at r1 hl
      have := ih true A (B ++ [e.step]) e.step ha r2 g2 (by simp) (fun x hx => (hA x hx).trans hlt.le)
        (by intro x hx; rcases List.mem_append.mp hx with hx | hx
            · exact (hB x hx).trans hlt.le
            · simp at hx; rw [hx])
        (h.snoc_right hl hA hlt r1)
      simpa [stepsOf, he] using this

/-! ## Plans -/

variable [Trig K]

theorem stepOf_stateFor_place (F : Foot K) (s : Step K) (t : K) :
    (stepOf F (stateFor F s) t).position = s.position ∧ (stepOf F (stateFor F s) t).angle = s.angle := by
  refine ⟨?_, ?_⟩
  · ext <;> simp [stepOf, stateFor]
  · simp [stepOf, stateFor]

theorem KeepsStance.closing {p : Planner K} (h : KeepsStance R p) (l r : FootPrint K) (b : Bool) (prev : Step K) (t : K) (k : StepKind) :
    Relates R prev ⟨b, stepOf (if b then leftFoot p l else rightFoot p r)
      (stateFor (if b then rightFoot p r else leftFoot p l) prev) t, k⟩ := by
  unfold Relates
  cases b
  · obtain ⟨e1, e2⟩ := stepOf_stateFor_place (leftFoot p l) prev t
    have := h.beside (stateFor (leftFoot p l) prev) l r t t
    rw [e1, e2] at this
    simpa using this
  · obtain ⟨e1, e2⟩ := stepOf_stateFor_place (rightFoot p r) prev t
    have := h.beside (stateFor (rightFoot p r) prev) l r t t
    rw [e1, e2] at this
    simpa using this

theorem KeepsStance.feasible {p : Planner K} (h : KeepsStance R p) (l r : FootPrint K) (b : Bool) (prev : Step K) (u : UState K) (dur t : K) (k : StepKind)
    (ho : p.problem.areConstraintsSatisfied (dataOf (leftFoot p l) (rightFoot p r) b prev u dur) = true) :
    Relates R prev ⟨b, stepOf (if b then leftFoot p l else rightFoot p r) u t, k⟩ := by
  unfold Relates
  cases b
  · exact h.right prev u l r dur t ho
  · exact h.left prev u l r dur t ho

theorem KeepsStance.same {p q : Planner K} (h : KeepsStance R p) (hs : SameConfig p q) : KeepsStance R q := by
  have e1 : q.problem = p.problem := by rw [hs]
  have e2 : ∀ fp, leftFoot q fp = leftFoot p fp := by intro fp; rw [hs]; rfl
  have e3 : ∀ fp, rightFoot q fp = rightFoot p fp := by intro fp; rw [hs]; rfl
  obtain ⟨h1, h2, h3⟩ := h
  exact ⟨by simpa only [e2, e3] using h1, by simpa only [e1, e2, e3] using h2, by simpa only [e1, e2, e3] using h3⟩

variable {p : Planner K} {integ : Integrator K} {left right left' right' : FootPrint K} {t0 t1 : K} {d : Plan K}

theorem PlanOf.relates (h : PlanOf p integ left right t0 t1 left' right' d) (hk : KeepsStance R p) : Along (Relates R) d.prev d.log := by
  have hq : KeepsStance R d.q := hk.same (by
    have := h.begins.eq
    unfold SameConfig
    rw [this])
  refine h.along (fun c e hc => ?_) ?_
  · cases hc with
    | optimised n m hm => exact hq.feasible _ _ _ _ _ _ _ _ hm.2.2.2.2.1.2.2.2.2
    | parallel n hm => exact hq.closing _ _ _ _ _ _
  · have ht := h.terminal
    split_ifs at ht
    · generalize d.terminal = T at ht
      cases ht with
      | both hc =>
        refine ⟨hq.feasible _ _ _ _ _ _ _ _ hc.1, ?_, trivial⟩
        unfold Relates
        cases hl : d.final.left
        · exact hq.beside _ _ _ _ _
        · exact hq.beside _ _ _ _ _
      | close _ _ => exact ⟨hq.closing _ _ _ _ _ _, trivial⟩
      | skip _ _ => trivial
    · rw [ht]; trivial

/-- A plan that starts with one contact for each foot. -/
theorem PlanOf.paired (h : PlanOf p integ left right t0 t1 left' right' d) (hp : Timed p) (hmin : 0 < p.minTime) (hk : KeepsStance R p)
    {l r : Step K} (hl : d.l0.steps = [l]) (hr : d.r0.steps = [r]) (h0 : R (l.position, l.angle) (r.position, r.angle)) :
    Paired R left'.steps right'.steps := by
  rcases h.effect with ⟨-, rfl, rfl⟩ | ⟨-, a, b, ha, hb, hre⟩
  · have hlast := h.begins.last
    have hswing := h.begins.swing
    have hA : (∀ x ∈ d.l0.steps, x.impactTime ≤ d.prev.impactTime) ∧ ∀ x ∈ d.r0.steps, x.impactTime ≤ d.prev.impactTime := by
      rw [hl, hr]
      cases hb : d.q.swingLeft
      · simp only [hb, Bool.false_eq_true, if_false, hl, hr, List.getLast?_singleton, Option.some.injEq] at hlast hswing
        subst hlast
        exact ⟨fun x hx => by simp at hx; rw [hx], fun x hx => by simp at hx; rw [hx]; exact hswing r rfl⟩
      · simp only [hb, if_true, hl, hr, List.getLast?_singleton, Option.some.injEq] at hlast hswing
        subst hlast
        exact ⟨fun x hx => by simp at hx; rw [hx]; exact hswing l rfl, fun x hx => by simp at hx; rw [hx]⟩
    refine paired_extend hmin d.log d.firstLeft d.l0.steps d.r0.steps d.prev h.alternates (h.relates hk) (h.gaps hp) ?_ hA.1 hA.2 ?_
    · rw [← hlast]
      unfold Plan.firstLeft
      cases d.q.swingLeft <;> rfl
    · rw [hl, hr]; exact paired_singletons h0
  · have key : ∀ {fp fp' : FootPrint K} {s : Step K} {t : K}, fp.steps = [s] → Retimed fp t fp' →
        ∃ s', fp'.steps = [s'] ∧ s'.position = s.position ∧ s'.angle = s.angle := by
      rintro fp fp' s t e ⟨older, s', e', rfl⟩
      rw [e] at e'
      have : older = [] := by
        cases older with
        | nil => rfl
        | cons x xs => simp at e'
      subst this
      simp at e'
      subst e'
      exact ⟨_, rfl, rfl, rfl⟩
    rcases hre with ⟨-, rfl, rfl⟩ | ⟨-, rfl, hre⟩ | ⟨-, hre, rfl⟩
    · rw [hl, hr]; exact paired_singletons h0
    · obtain ⟨s', e1, e2, e3⟩ := key hr hre
      rw [hl, e1]; exact paired_singletons (by rw [e2, e3]; exact h0)
    · obtain ⟨s', e1, e2, e3⟩ := key hl hre
      rw [hr, e1]; exact paired_singletons (by rw [e2, e3]; exact h0)

theorem Paired.present (h : Paired R A B) {t : K} {l r : Step K} (hl : Present A t l) (hr : Present B t r) :
    R (l.position, l.angle) (r.position, r.angle) := by
  obtain ⟨o, n, rfl, h1, h2⟩ := hl
  obtain ⟨o', n', rfl, h1', h2'⟩ := hr
  refine h o.length o'.length l r (by simp) (by simp) (fun s hs => ?_) (fun s hs => ?_)
  · rw [List.getElem?_append_right (by omega)] at hs
    simp at hs
    exact h1'.trans_lt (h2 s (List.mem_of_getElem? hs))
  · rw [List.getElem?_append_right (by omega)] at hs
    simp at hs
    exact h1.trans_lt (h2' s (List.mem_of_getElem? hs))

end Uni.Spec

namespace Uni
open Spec Gen

/-! ## Samples -/

namespace Gen
variable {K : Type} [Field K] [LinearOrder K] [IsStrictOrderedRing K] [FloorRing K] [Trig K]
variable {cfg : GenSettings K} {left right : FootPrint K} {initTime dT : K} {sorted ordered : List (Ptr K)} {t : Timing K}

/-- A contact made after slot `k` is later than one made before. -/
theorem later_contact (hs : SortedPtrs left right sorted) (h : timeline cfg left right initTime dT sorted = .ok (ordered, t))
    (hpos : t.shifts.Pairwise (· < ·)) {l r : Step K} {tt : Timetable} (hr : Run cfg left right initTime dT sorted ordered t l r tt) (k : Nat)
    (f : Bool) (s s' : Step K)
    (h1 : (if f then left.steps else right.steps)[(tt.slots.take k).countP (fun x => x.left == f) + 1]? = some s)
    (h2 : (if f then right.steps else left.steps)[(tt.slots.take k).countP (fun x => x.left == !f)]? = some s') :
    s'.impactTime < s.impactTime := by
  have hp : tt.Positive := positive_of_shifts (by rw [← hr.built.shifts]; exact hpos)
  have hdT := hr.dT_pos
  have hsucc : ∀ (m : Nat) (x : Slot), tt.slots[m]? = some x → slotStart tt.slots m + 2 ≤ slotStart tt.slots (m + 1) := by
    intro m x hx
    have := hp.1 x (List.mem_of_getElem? hx)
    rw [slotStart_succ _ _ _ hx]; omega
  obtain ⟨m, x, m1, m2, m3, m4⟩ := landing_of hs h hr f _ s h1
  have hmk : k ≤ m := by
    by_contra hlt
    have h1 := countP_take_succ (fun x : Slot => x.left == f) tt.slots m1 (by simpa using m2)
    have h2 := countP_take_mono (fun x : Slot => x.left == f) tt.slots (show m + 1 ≤ k by omega)
    omega
  have h8 := hsucc m x m1
  have h11 := (abs_le.mp m4).2
  have e2 : (if f then right.steps else left.steps) = if (!f) then left.steps else right.steps := by cases f <;> rfl
  rw [e2] at h2
  cases hc : (tt.slots.take k).countP (fun x => x.left == !f) with
  | zero =>
    rw [hc] at h2
    have hi : s'.impactTime ≤ initTime := by
      rw [← List.head?_eq_getElem?] at h2
      cases f
      · simp only [Bool.not_false, if_true] at h2
        rw [hr.headL] at h2; cases h2; exact hr.init_l
      · simp only [Bool.not_true, Bool.false_eq_true, if_false] at h2
        rw [hr.headR] at h2; cases h2; exact hr.init_r
    have h9 : (2 : K) * dT ≤ ((slotStart tt.slots (m + 1) : Nat) : K) * dT :=
      mul_le_mul_of_nonneg_right (by exact_mod_cast (by omega)) hdT.le
    linarith
  | succ n =>
    rw [hc] at h2
    obtain ⟨m', x', n1, n2, n3, n4⟩ := landing_of hs h hr (!f) n s' h2
    have hmm : m' < k := by
      by_contra hge
      have := countP_take_mono (fun x : Slot => x.left == !f) tt.slots (show k ≤ m' by omega)
      omega
    have h9 := slotStart_mono tt.slots (show m' + 1 ≤ m by omega)
    have h10 : (((slotStart tt.slots (m' + 1) : Nat) : K) + 2) * dT ≤ ((slotStart tt.slots (m + 1) : Nat) : K) * dT :=
      mul_le_mul_of_nonneg_right (by exact_mod_cast (by omega)) hdT.le
    have h12 := (abs_le.mp n4).1
    linarith

/-- The contacts on which the feet are at a sample are on the ground at the same time. -/
theorem sample_paired {R : Vec2 K × K → Vec2 K × K → Prop} (hP : Paired R left.steps right.steps) (hs : SortedPtrs left right sorted)
    (h : timeline cfg left right initTime dT sorted = .ok (ordered, t)) (hpos : t.shifts.Pairwise (· < ·)) (j : Nat) (hj : j < t.left.length)
    {a b : Step K} (ha : left.steps[landings t.left j]? = some a) (hb : right.steps[landings t.right j]? = some b) :
    R (a.position, a.angle) (b.position, b.angle) := by
  obtain ⟨l, r, tt, hr⟩ := timeline_ok h
  obtain ⟨k, k1, k2, k3, k4⟩ := Zmp.sample_slot hpos hr true j hj
  obtain ⟨k', k1', k2', k3', k4'⟩ := Zmp.sample_slot hpos hr false j hj
  have hkk : k = k' := by
    rcases lt_trichotomy k k' with hlt | he | hlt
    · have := k3 (by omega)
      have := slotStart_mono tt.slots (show k + 1 ≤ k' by omega)
      omega
    · exact he
    · have := k3' (by omega)
      have := slotStart_mono tt.slots (show k' + 1 ≤ k by omega)
      omega
  subst hkk
  simp only [if_true, Bool.false_eq_true, if_false] at k4 k4'
  rw [k4] at ha
  rw [k4'] at hb
  exact hP _ _ a b ha hb (fun s hs' => later_contact hs h hpos hr k true s b hs' hb) (fun s hs' => later_contact hs h hpos hr k false s a hs' ha)

theorem landings_step (ph : List Phase) (j : Nat) :
    landings ph (j + 1) = landings ph j + if ph[j]? = some .swing ∧ ph[j + 1]? ≠ some .swing then 1 else 0 := by
  unfold landings
  rw [List.range_succ, List.countP_append]
  simp [List.countP_cons, decide_eq_true_eq]

/-- No landing in the middle of a swing. -/
theorem landings_within {ph : List Phase} {a n : Nat} (h : IsSwing ph a n) : ∀ m, m < n → landings ph (a + m) = landings ph a := by
  intro m
  induction m with
  | zero => intro _; rfl
  | succ m ih =>
    intro hm
    rw [← Nat.add_assoc, landings_step, ih (by omega)]
    have := h.all (m + 1) hm
    rw [← Nat.add_assoc] at this
    simp [this]

theorem landings_end {ph : List Phase} {a n : Nat} (h : IsSwing ph a n) : landings ph (a + n) = landings ph a + 1 := by
  have hn := h.pos
  obtain ⟨k, rfl⟩ : ∃ k, n = k + 1 := ⟨n - 1, by omega⟩
  rw [← Nat.add_assoc, landings_step, landings_within h k (by omega)]
  have h1 := h.all k (by omega)
  have h2 := h.after
  rw [← Nat.add_assoc] at h2
  simp [h1, h2]

theorem landings_still {ph : List Phase} (j n : Nat) (h : ∀ m, m < n → ph[j + m]? ≠ some .swing) : landings ph (j + n) = landings ph j := by
  induction n with
  | zero => rfl
  | succ n ih =>
    rw [← Nat.add_assoc, landings_step, ih fun m hm => h m (by omega)]
    simp [h n (by omega)]

/-- The step a foot swings from and the one it swings to are both on the ground at the same time as the step of the other foot. -/
theorem swing_paired {R : Vec2 K × K → Vec2 K × K → Prop} (hP : Paired R left.steps right.steps) (hs : SortedPtrs left right sorted)
    (h : timeline cfg left right initTime dT sorted = .ok (ordered, t)) (hpos : t.shifts.Pairwise (· < ·)) (f : Bool) (a n m : Nat)
    (hm : m < n) (hsw : IsSwing (if f then t.left else t.right) a n) {s s' r : Step K}
    (h1 : (if f then left.steps else right.steps)[landings (if f then t.left else t.right) a]? = some s)
    (h2 : (if f then left.steps else right.steps)[landings (if f then t.left else t.right) a + 1]? = some s')
    (h3 : (if f then right.steps else left.steps)[landings (if f then t.right else t.left) (a + m)]? = some r) :
    if f then R (s.position, s.angle) (r.position, r.angle) ∧ R (s'.position, s'.angle) (r.position, r.angle)
    else R (r.position, r.angle) (s.position, s.angle) ∧ R (r.position, r.angle) (s'.position, s'.angle) := by
  obtain ⟨l0, r0, tt, hr⟩ := timeline_ok h
  have hp : tt.Positive := positive_of_shifts (by rw [← hr.built.shifts]; exact hpos)
  have hlen : (if f then t.left else t.right).length = t.left.length := by
    have := (C34_partition h).1
    cases f
    · exact this.symm
    · rfl
  have hT : 0 < t.left.length := by
    have := hp.2
    rw [hr.built.left, tt.length_phases, total_eq]; omega
  have hlast : (if f then t.left else t.right)[t.left.length - 1]? = some (if tt.lastLeft = f then .switchIn else .switchOut) := by
    have e : (if f then t.left else t.right) = tt.phases f := by
      cases f
      · exact hr.built.right
      · exact hr.built.left
    have hl : t.left.length = slotStart tt.slots tt.slots.length + tt.rest := by
      rw [hr.built.left, tt.length_phases, total_eq]
    rw [e]
    have := hp.2
    exact phases_rest tt f _ (by omega) (by rw [total_eq]; omega)
  have hin : ∀ i, i < n → a + i < t.left.length := by
    intro i hi
    rw [← hlen]
    exact (List.getElem?_eq_some_iff.mp (hsw.all i hi)).1
  have hend : a + n < t.left.length := by
    by_contra hc
    have hn := hsw.pos
    have := hin (n - 1) (by omega)
    have e := hsw.all (n - 1) (by omega)
    rw [show a + (n - 1) = t.left.length - 1 by omega, hlast] at e
    split_ifs at e <;> cases e
  have hother : ∀ i, i < n → (if f then t.right else t.left)[a + i]? ≠ some .swing := by
    intro i hi hc
    obtain ⟨x, y, hx, hy, hcomp⟩ := C35_complementary h (a + i) (hin i hi)
    have e := hsw.all i hi
    cases f
    · simp only [Bool.false_eq_true, if_false] at e hc
      rw [hy] at e; rw [hx] at hc
      cases e; cases hc
      simp [Complementary] at hcomp
    · simp only [if_true] at e hc
      rw [hx] at e; rw [hy] at hc
      cases e; cases hc
      simp [Complementary] at hcomp
  have hl1 := landings_within hsw m hm
  have hl2 := landings_end hsw
  have hl3 : landings (if f then t.right else t.left) (a + n) = landings (if f then t.right else t.left) (a + m) := by
    have := landings_still (ph := if f then t.right else t.left) (a + m) (n - m) (fun i hi => by
      have := hother (m + i) (by omega)
      rwa [← Nat.add_assoc] at this)
    rwa [show a + m + (n - m) = a + n by omega] at this
  rw [← hl1] at h1
  rw [← hl2] at h2
  have h4 := h3
  rw [← hl3] at h4
  cases f
  · simp only [Bool.false_eq_true, if_false] at *
    exact ⟨sample_paired hP hs h hpos _ (hin m hm) h3 h1, sample_paired hP hs h hpos _ hend h4 h2⟩
  · simp only [if_true] at *
    exact ⟨sample_paired hP hs h hpos _ (hin m hm) h1 h3, sample_paired hP hs h hpos _ hend h2 h4⟩

end Gen

/-! ## Walks -/

namespace Walker
variable {K : Type} [Field K] [LinearOrder K] [IsStrictOrderedRing K] [FloorRing K] [Trig K]
variable {integ : Integrator K} {sort : Sorter K} {before old new w : Walker K} {c : Call K} {k m : Nat} {q : Request K} {dT time : K}
variable {legs : List (Leg K)} {R : Vec2 K × K → Vec2 K × K → Prop}

theorem accepted_of_done {p p' : Planner K} {fuel : Nat} {left right left' right' : FootPrint K} {t0 t1 : K}
    (h : p.computeNewSteps integ fuel left right t0 t1 = .done true p' left' right') : Accepted p := by
  by_contra hc
  rw [Planner.C31_inconsistent_bounds hc] at h
  cases h

theorem accepted_same {p q : Planner K} (h : Accepted p) (hs : SameConfig p q) : Accepted q := by
  unfold SameConfig at hs
  rw [hs]; exact h

theorem samePlanner_back {p q : Planner K} (hs : SameConfig p q) : SameConfig q p := by
  unfold SameConfig at hs ⊢
  rw [hs]

/-- The first walk, planned with no step. -/
theorem paired_first {fuel : Nat} {t0 t1 : K} (hpi : (0 : K) ≤ Trig.pi) (hb : Reached integ sort before)
    (h : before.call integ fuel sort (.generate t0 dT t1) = .done true w) (hl : before.left.steps = []) (hr : before.right.steps = [])
    (hmin : 0 < w.planner.minTime) (hk : Accepted w.planner → KeepsStance R w.planner) : Paired R w.left.steps w.right.steps := by
  rcases next_done h with ⟨w1, e1, e2⟩ | ⟨hf, -⟩
  swap
  · cases hf
  obtain ⟨n1, n2, -⟩ := members_made_by e2
  have hp : w.planner = w1.planner := by
    unfold fromMembers at e2
    split at e2
    · rename_i e
      cases e2
      obtain ⟨o, t, ht, e⟩ := fromFootPrints_true e
      obtain ⟨c, m, z, d, g, -, -, -, -, -, rfl⟩ := trajectories_true.mp e
      rfl
    · cases e2
    · cases e2
  unfold Walker.plan at e1
  split at e1
  rotate_left
  · cases e1
  · cases e1
  rename_i b p' l' r' hc
  simp only [Result.done.injEq] at e1
  obtain ⟨rfl, rfl⟩ := e1
  simp only at n1 n2 hp
  have hsame := Planner.C59_configuration_kept hc
  obtain ⟨d, hd⟩ := Planner.exists_plan (hb.timed hpi) (by intro s hs; rw [hl] at hs; cases hs) (by intro s hs; rw [hr] at hs; cases hs) hc
  rw [hp] at hmin hk
  have hK := (hk (accepted_same (accepted_of_done hc) hsame)).same (samePlanner_back hsame)
  have hmin' : 0 < before.planner.minTime := by
    unfold SameConfig at hsame; rw [hsame] at hmin; exact hmin
  rw [n1, n2]
  rcases hd.begins.steps with ⟨n, -, -⟩ | ⟨-, -, u, -, s1, s2⟩
  · exact absurd ⟨hl, hr⟩ n
  · refine hd.paired (hb.timed hpi) hmin' hK (l := stepOf (leftFoot before.planner before.left) u t0)
      (r := stepOf (rightFoot before.planner before.right) u t0) ?_ ?_ (hK.beside _ _ _ _ _)
    · rw [s1]
    · rw [s2]

/-- A walk that replaces another one. -/
theorem paired_next (hpi : (0 : K) ≤ Trig.pi) (h : Merging integ sort before old new c k m q dT) (hL : NonNeg old.left) (hR : NonNeg old.right)
    (hmin : 0 < new.planner.minTime) (hk : Accepted new.planner → KeepsStance R new.planner)
    (hmeas : (measuredOf true q ≠ none ∨ measuredOf false q ≠ none) →
      ∀ sL sR, Present old.left.steps (timeOf c m) sL → Present old.right.steps (timeOf c m) sR →
        R (corrected (measuredOf true q) sL) (corrected (measuredOf false q) sR))
    (hP : Paired R old.left.steps old.right.steps) : Paired R new.left.steps new.right.steps := by
  obtain ⟨fuel0, hg⟩ := h.generated
  obtain ⟨fuel, changes, weight, pos, vel, endTime, r1, r2, r3⟩ := h.replanned
  have hro : Reached integ sort old := .call _ _ _ _ _ h.reached hg
  obtain ⟨p2, hp2⟩ := runAll_planner changes old
  have hrun : old.runAll (changes.map .planner ++ [.zmp (.setWeightInitialState weight), .dcm (.setDCMInitialState pos vel)]) =
      { old with planner := p2, zmp := Plugin.set old.zmp fun z => z.setWeightInitialState weight,
                 dcm := Plugin.set old.dcm fun d => (d.setDCMInitialState pos vel).2 } := by
    unfold runAll at hp2 ⊢
    rw [List.foldl_append, hp2]
    rfl
  have hr2 : Reached integ sort (old.runAll (changes.map .planner ++
      [.zmp (.setWeightInitialState weight), .dcm (.setDCMInitialState pos vel)])) := Reached.runAll _ hro
  have ht2 := hr2.timed hpi
  rw [hrun] at r3 ht2
  rcases next_done r3 with ⟨w3, e1, e2⟩ | ⟨hf, -⟩
  swap
  · cases hf
  obtain ⟨n1, n2, -⟩ := members_made_by e2
  have hp : new.planner = w3.planner := by
    unfold fromMembers at e2
    split at e2
    · rename_i e
      cases e2
      obtain ⟨o, t, ht, e⟩ := fromFootPrints_true e
      obtain ⟨c, m, z, d, g, -, -, -, -, -, rfl⟩ := trajectories_true.mp e
      rfl
    · cases e2
    · cases e2
  unfold Walker.replan at e1
  split at e1
  rotate_left
  · cases e1
  · cases e1
  rename_i b p' l' r' prev hre
  simp only [Result.done.injEq] at e1
  obtain ⟨rfl, rfl⟩ := e1
  simp only at hre n1 n2 hp
  obtain ⟨sL, sR, reset, cL, cR, h1, h2, h3, h4, p1, p2', h5, h6⟩ := computeNewStepsFromMeasured_true hL hR hre
  have hsame := Planner.C59_configuration_kept h5
  obtain ⟨d, hd⟩ := Planner.exists_plan ht2 (by intro s hs; simp at hs; rw [hs]; exact p1)
    (by intro s hs; simp at hs; rw [hs]; exact p2') h5
  have place := editedSteps_place (timeOf c m) (q.measuredLeft (timeOf c m) old.left.footName)
    (q.measuredRight (timeOf c m) old.right.footName) q.correction reset
    { sL with footName := old.left.footName } { sR with footName := old.right.footName }
  rw [← h4] at place
  simp only at place
  have hRc : R (cL.position, cL.angle) (cR.position, cR.angle) := by
    have eL : (cL.position, cL.angle) = corrected (measuredOf true q) sL := by
      rw [place.1]
      rcases q with _ | _ | ⟨b, _, _⟩ | _ <;> try rfl
      cases b <;> rfl
    have eR : (cR.position, cR.angle) = corrected (measuredOf false q) sR := by
      rw [place.2]
      rcases q with _ | _ | ⟨b, _, _⟩ | _ <;> try rfl
      cases b <;> rfl
    rw [eL, eR]
    by_cases hc : measuredOf true q ≠ none ∨ measuredOf false q ≠ none
    · exact hmeas hc sL sR h1 h2
    · rw [not_or, not_not, not_not] at hc
      rw [hc.1, hc.2]
      exact hP.present h1 h2
  rw [hp] at hmin hk
  have hK := (hk (accepted_same (accepted_of_done h5) hsame)).same (samePlanner_back hsame)
  have hmin' : 0 < p2.minTime := by
    unfold SameConfig at hsame; rw [hsame] at hmin; exact hmin
  rw [n1, n2]
  rcases hd.begins.steps with ⟨-, s1, s2⟩ | ⟨n, -⟩
  · exact hd.paired ht2 hmin' hK (l := { cL with footName := old.left.footName }) (r := { cR with footName := old.right.footName })
      (by rw [s1]) (by rw [s2]) hRc
  · simp at n

theorem walking_reached (h : Walking integ sort dT legs w time) : Everywhere (fun w _ => Reached integ sort w) legs w time := by
  induction h with
  | start hr hg hd => exact ⟨by simp, .call _ _ _ _ _ hr hg⟩
  | again hw hd hm ih =>
    obtain ⟨w1, _, _, hr, -⟩ := walking_made (.again hw hd hm)
    refine ⟨fun l hl => ?_, hr⟩
    rcases List.mem_append.mp hl with hl | hl
    · exact ih.1 l hl
    · simp at hl; rw [hl]; exact ih.2

/-- The feet of one walk. -/
theorem feet_stand {S : Type} {plugin : Walker K → Option (Plugin S (FeetOut K))} {w1 : Walker K} {ordered : List (Ptr K)} {t : Timing K}
    (hsort : ∀ l r, SortedPtrs l r (sort l r)) (hm : MadeBy w1 w time dT (sort w.left w.right) ordered t) (hpos : t.shifts.Pairwise (· < ·))
    (hc : ∀ p out, plugin w = some p → p.result = some out → ∀ (f : Bool) (j : Nat) (ph : Phase),
      (if f then t.left else t.right)[j]? = some ph → ph ≠ .swing →
      ∃ s o, (if f then w.left.steps else w.right.steps)[landings (if f then t.left else t.right) j]? = some s ∧
        (if f then out.1 else out.2)[j]? = some o ∧ AtRestOn s o)
    (hP : Paired R w.left.steps w.right.steps) : ∀ x ∈ feetOf plugin w, StandsWith R x := by
  intro x hx h1 h2
  obtain ⟨j, hj⟩ := List.getElem?_of_mem hx
  unfold feetOf at hj
  rw [List.getElem?_zip_eq_some] at hj
  obtain ⟨j1, j2⟩ := hj
  unfold footOf at j1 j2
  cases hp : plugin w with
  | none => simp [hp] at j1
  | some p =>
    cases ho : p.result with
    | none => simp [hp, ho] at j1
    | some out =>
      simp only [hp, ho, Option.bind_some, List.getElem?_zip_eq_some, if_true, Bool.false_eq_true, if_false] at j1 j2
      obtain ⟨a1, a2⟩ := j1
      obtain ⟨b1, b2⟩ := j2
      rw [h1] at a1
      rw [h2] at b1
      obtain ⟨pa, q1, q2⟩ := contact_phase hm true a1
      obtain ⟨pb, q3, q4⟩ := contact_phase hm false b1
      obtain ⟨s, o, s1, s2, s3⟩ := hc p out hp ho true j pa q1 q2
      obtain ⟨s', o', s1', s2', s3'⟩ := hc p out hp ho false j pb q3 q4
      simp only [if_true, Bool.false_eq_true, if_false] at s1 s2 s1' s2'
      rw [a2] at s2
      cases s2
      rw [b2] at s2'
      cases s2'
      have := sample_paired hP (hsort _ _) hm.made hpos j (by simpa using (List.getElem?_eq_some_iff.mp q1).1) s1 s1'
      obtain ⟨c1, c2, -, -, c3, -⟩ := s3
      obtain ⟨d1, d2, -, -, d3, -⟩ := s3'
      rw [c1, c2, c3, d1, d2, d3]
      exact this

theorem minJerk_stand (hsort : ∀ l r, SortedPtrs l r (sort l r)) (hw : Walking integ sort dT legs w time) (hl : NoEmptyPhase sort w time dT)
    (hh : ∀ p, w.minJerk = some p → 0 ≤ p.state.stepHeight) (hP : Paired R w.left.steps w.right.steps) :
    ∀ x ∈ feetOf Walker.minJerk w, StandsWith R x := by
  obtain ⟨w1, ordered, t, hr, hm⟩ := walking_made hw
  have hpos := hl _ _ hm.made
  refine feet_stand hsort hm hpos (fun p out hp ho f j ph h1 h2 => ?_) hP
  obtain ⟨p0, lo, ro, -, a2, a3, a4⟩ := hm.minJerk p hp
  rw [ho] at a3
  cases a3
  have hready := ready_of_history (hr.history.minJerk p hp) (hh p hp)
  rw [a2] at hready
  exact MinJerk.C43_contact_partial hready (hsort _ _) hm.made hpos a4 f j ph h1 h2

theorem cubic_stand (hsort : ∀ l r, SortedPtrs l r (sort l r)) (hw : Walking integ sort dT legs w time) (hl : NoEmptyPhase sort w time dT)
    (hh : ∀ p, w.cubic = some p → 0 ≤ p.state.stepHeight) (hP : Paired R w.left.steps w.right.steps) :
    ∀ x ∈ feetOf Walker.cubic w, StandsWith R x := by
  obtain ⟨w1, ordered, t, hr, hm⟩ := walking_made hw
  have hpos := hl _ _ hm.made
  refine feet_stand hsort hm hpos (fun p out hp ho f j ph h1 h2 => ?_) hP
  obtain ⟨p0, lo, ro, -, a2, a3, a4⟩ := hm.cubic p hp
  rw [ho] at a3
  cases a3
  have hready := ready_of_history (hr.history.cubic p hp) (hh p hp)
  rw [a2] at hready
  exact CubicFeet.C43_spline_contact_partial hready (hsort _ _) hm.made hpos a4 f j ph h1 h2

/-! ## Swings -/

theorem lam_range {lam : Nat → K} {n : Nat} (h0 : lam 0 = 0) (h1 : lam n = 1) (h : ∀ m, m < n → lam m < lam (m + 1)) (m : Nat) (hm : m ≤ n) :
    0 ≤ lam m ∧ lam m ≤ 1 := by
  have up : ∀ a b, a ≤ b → b ≤ n → lam a ≤ lam b := by
    intro a b hab
    induction b, hab using Nat.le_induction with
    | base => intro _; exact le_refl _
    | succ b _ ih => intro hb; exact (ih (by omega)).trans (h b (by omega)).le
  exact ⟨by rw [← h0]; exact up 0 m (by omega) hm, by rw [← h1]; exact up m n hm (le_refl _)⟩

theorem onTheWay_between {s s' : Step K} {lam : K} {o : FootSample K} (h : OnTheWay s s' lam o) :
    ((⟨o.pos.x, o.pos.y⟩ : Vec2 K), o.yaw) = poseBetween lam (s.position, s.angle) (s'.position, s'.angle) := by
  obtain ⟨h1, h2, h3⟩ := h
  simp only [poseBetween, h1, h2, h3]

/-- The feet of one walk, swings included. -/
theorem feet_move {S : Type} {plugin : Walker K → Option (Plugin S (FeetOut K))} {w1 : Walker K} {ordered : List (Ptr K)} {t : Timing K}
    (hsort : ∀ l r, SortedPtrs l r (sort l r)) (hm : MadeBy w1 w time dT (sort w.left w.right) ordered t) (hpos : t.shifts.Pairwise (· < ·))
    (hc : ∀ p out, plugin w = some p → p.result = some out → ∀ (f : Bool) (j : Nat) (ph : Phase),
      (if f then t.left else t.right)[j]? = some ph → ph ≠ .swing →
      ∃ s o, (if f then w.left.steps else w.right.steps)[landings (if f then t.left else t.right) j]? = some s ∧
        (if f then out.1 else out.2)[j]? = some o ∧ AtRestOn s o)
    (hs : ∀ p out, plugin w = some p → p.result = some out → ∀ (f : Bool) (j : Nat),
      (if f then t.left else t.right)[j]? = some .swing → ∃ a n m s s' lam o, j = a + m ∧ m < n ∧ IsSwing (if f then t.left else t.right) a n ∧
        (if f then w.left.steps else w.right.steps)[landings (if f then t.left else t.right) a]? = some s ∧
        (if f then w.left.steps else w.right.steps)[landings (if f then t.left else t.right) a + 1]? = some s' ∧
        0 ≤ lam ∧ lam ≤ 1 ∧ (if f then out.1 else out.2)[j]? = some o ∧ OnTheWay s s' lam o)
    (hP : Paired R w.left.steps w.right.steps) (hR : Convex R) : ∀ x ∈ feetOf plugin w, MovesWith R x := by
  intro x hx
  obtain ⟨j, hj⟩ := List.getElem?_of_mem hx
  unfold feetOf at hj
  rw [List.getElem?_zip_eq_some] at hj
  obtain ⟨j1, j2⟩ := hj
  unfold footOf at j1 j2
  cases hp : plugin w with
  | none => simp [hp] at j1
  | some p =>
    cases ho : p.result with
    | none => simp [hp, ho] at j1
    | some out =>
      simp only [hp, ho, Option.bind_some, List.getElem?_zip_eq_some, if_true, Bool.false_eq_true, if_false] at j1 j2
      obtain ⟨a1, a2⟩ := j1
      obtain ⟨b1, b2⟩ := j2
      have hjl : j < t.left.length := by
        rw [hm.outputs] at a1
        have := (List.getElem?_eq_some_iff.mp a1).1
        simpa [contacts] using this
      obtain ⟨pa, pb, q1, q3, hcomp⟩ := C35_complementary hm.made j hjl
      unfold MovesWith
      by_cases hpa : pa = .swing
      · subst hpa
        have hpb : pb ≠ .swing := by rintro rfl; simp [Complementary] at hcomp
        obtain ⟨a, n, m, s, s', lam, o, rfl, hmn, hsw, e1, e2, l0, l1, e3, e4⟩ := hs p out hp ho true j q1
        obtain ⟨r, o', f1, f2, f3⟩ := hc p out hp ho false _ pb q3 hpb
        have := swing_paired hP (hsort _ _) hm.made hpos true a n m hmn hsw e1 e2 f1
        simp only [if_true, Bool.false_eq_true, if_false] at this e3 f2
        rw [a2] at e3; cases e3
        rw [b2] at f2; cases f2
        obtain ⟨d1, d2, -, -, d3, -⟩ := f3
        rw [onTheWay_between e4, d1, d2, d3]
        exact (hR lam _ _ _ l0 l1).1 this.1 this.2
      · by_cases hpb : pb = .swing
        · subst hpb
          obtain ⟨a, n, m, s, s', lam, o, rfl, hmn, hsw, e1, e2, l0, l1, e3, e4⟩ := hs p out hp ho false j q3
          obtain ⟨r, o', f1, f2, f3⟩ := hc p out hp ho true _ pa q1 hpa
          have := swing_paired hP (hsort _ _) hm.made hpos false a n m hmn hsw e1 e2 f1
          simp only [if_true, Bool.false_eq_true, if_false] at this e3 f2
          rw [b2] at e3; cases e3
          rw [a2] at f2; cases f2
          obtain ⟨d1, d2, -, -, d3, -⟩ := f3
          rw [onTheWay_between e4, d1, d2, d3]
          exact (hR lam _ _ _ l0 l1).2 this.1 this.2
        · obtain ⟨s, o, s1, s2, s3⟩ := hc p out hp ho true j pa q1 hpa
          obtain ⟨s', o', s1', s2', s3'⟩ := hc p out hp ho false j pb q3 hpb
          simp only [if_true, Bool.false_eq_true, if_false] at s1 s2 s1' s2'
          rw [a2] at s2
          cases s2
          rw [b2] at s2'
          cases s2'
          have := sample_paired hP (hsort _ _) hm.made hpos j hjl s1 s1'
          obtain ⟨c1, c2, -, -, c3, -⟩ := s3
          obtain ⟨d1, d2, -, -, d3, -⟩ := s3'
          rw [c1, c2, c3, d1, d2, d3]
          exact this

theorem minJerk_move (hsort : ∀ l r, SortedPtrs l r (sort l r)) (hw : Walking integ sort dT legs w time) (hl : NoEmptyPhase sort w time dT)
    (hh : ∀ p, w.minJerk = some p → 0 ≤ p.state.stepHeight) (hP : Paired R w.left.steps w.right.steps) (hR : Convex R) :
    ∀ x ∈ feetOf Walker.minJerk w, MovesWith R x := by
  obtain ⟨w1, ordered, t, hr, hm⟩ := walking_made hw
  have hpos := hl _ _ hm.made
  refine feet_move hsort hm hpos (fun p out hp ho f j ph h1 h2 => ?_) (fun p out hp ho f j h1 => ?_) hP hR
  all_goals
    obtain ⟨p0, lo, ro, -, a2, a3, a4⟩ := hm.minJerk p hp
    rw [ho] at a3
    cases a3
    have hready := ready_of_history (hr.history.minJerk p hp) (hh p hp)
    rw [a2] at hready
  · exact MinJerk.C43_contact_partial hready (hsort _ _) hm.made hpos a4 f j ph h1 h2
  · obtain ⟨_, _, a, n, _, k1, k2, k3, -⟩ := (MinJerk.runs_of hready (hsort _ _) hm.made hpos a4 f).in_swing h1
    obtain ⟨s, s', g1, g2, lam, l0, l1, l2, l3⟩ := MinJerk.C43_swing_partial hready (hsort _ _) hm.made hpos a4 f a n k3
    obtain ⟨o, o1, o2⟩ := l3 (j - a) (by omega)
    obtain ⟨r1, r2⟩ := lam_range l0 l1 l2 (j - a) (by omega)
    exact ⟨a, n, j - a, s, s', lam (j - a), o, by omega, by omega, k3, g1, g2, r1, r2, by rw [← o1]; congr 1; omega, o2⟩

theorem cubic_move (hsort : ∀ l r, SortedPtrs l r (sort l r)) (hw : Walking integ sort dT legs w time) (hl : NoEmptyPhase sort w time dT)
    (hh : ∀ p, w.cubic = some p → 0 ≤ p.state.stepHeight) (hP : Paired R w.left.steps w.right.steps) (hR : Convex R) :
    ∀ x ∈ feetOf Walker.cubic w, MovesWith R x := by
  obtain ⟨w1, ordered, t, hr, hm⟩ := walking_made hw
  have hpos := hl _ _ hm.made
  refine feet_move hsort hm hpos (fun p out hp ho f j ph h1 h2 => ?_) (fun p out hp ho f j h1 => ?_) hP hR
  all_goals
    obtain ⟨p0, lo, ro, -, a2, a3, a4⟩ := hm.cubic p hp
    rw [ho] at a3
    cases a3
    have hready := ready_of_history (hr.history.cubic p hp) (hh p hp)
    rw [a2] at hready
  · exact CubicFeet.C43_spline_contact_partial hready (hsort _ _) hm.made hpos a4 f j ph h1 h2
  · obtain ⟨_, _, a, n, _, k1, k2, k3, -⟩ := (CubicFeet.runs_of hready (hsort _ _) hm.made hpos a4 f).in_swing h1
    obtain ⟨s, s', g1, g2, lam, l0, l1, l2, l3⟩ := CubicFeet.C43_spline_swing_partial hready (hsort _ _) hm.made hpos a4 f a n k3
    obtain ⟨o, o1, o2⟩ := l3 (j - a) (by omega)
    obtain ⟨r1, r2⟩ := lam_range l0 l1 l2 (j - a) (by omega)
    exact ⟨a, n, j - a, s, s', lam (j - a), o, by omega, by omega, k3, g1, g2, r1, r2, by rw [← o1]; congr 1; omega, o2⟩

end Walker
end Uni
