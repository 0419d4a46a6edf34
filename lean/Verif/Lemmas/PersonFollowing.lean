import Verif.Spec.Trajectory
import Verif.Lemmas.Ellipse
import Mathlib.Analysis.SpecialFunctions.Trigonometric.DerivHyp

/-! # Helper lemmas about the person-following controller -/

set_option autoImplicit false
set_option linter.unusedSectionVars false

namespace Uni.PersonCtrl
open Spec
variable {K : Type*} [Field K] [LinearOrder K]

theorem findRev_append (t : K) (post pre : List (TrajPoint K)) (p : TrajPoint K)
    (next : Option (TrajPoint K)) (hp : p.initTime ≤ t) (hpost : ∀ x ∈ post, t < x.initTime) :
    findRev t next (pre ++ p :: post).reverse = some (p, (post ++ next.toList).head?) := by
  induction post using List.reverseRecOn generalizing next with
  | nil => cases next <;> simp [findRev, hp]
  | append_singleton l a ih =>
    have ha : ¬ a.initTime ≤ t := not_le.mpr (hpost a (by simp))
    have : (pre ++ p :: (l ++ [a])).reverse = a :: (pre ++ p :: l).reverse := by simp
    rw [this, findRev, if_neg ha, ih _ (fun x hx => hpost x (by simp [hx]))]
    simp

/-- The value given by the point found and the next one. -/
def valueOf (t : K) (p : TrajPoint K) : Option (TrajPoint K) → Out (Vec2 K × Vec2 K)
  | none => .ok (p.y, p.yDot)
  | some q => interpolateReferences t p q

theorem desiredPoint_split {t : K} (ht : 0 ≤ t) (pre post : List (TrajPoint K)) (p : TrajPoint K)
    (hs : InTimeOrder (pre ++ p :: post)) (hp : p.initTime ≤ t) (hpost : ∀ x ∈ post, t < x.initTime) :
    desiredPoint (pre ++ p :: post) t = valueOf t p post.head? := by
  unfold desiredPoint
  rw [if_neg (not_lt.mpr ht)]
  have hfind := findRev_append t post pre p none hp hpost
  simp only [Option.toList_none, List.append_nil] at hfind
  rw [hfind]
  cases pre with
  | nil =>
    simp only [List.nil_append]
    rw [if_neg (not_lt.mpr hp)]
    cases post <;> rfl
  | cons a as =>
    simp only [List.cons_append]
    have ha : a.initTime ≤ t := by
      have := List.rel_of_pairwise_cons (p := hs) (a' := p) (by simp)
      exact le_trans this hp
    rw [if_neg (not_lt.mpr ha)]
    cases post <;> rfl

/-- A sorted trajectory splits around every time not before its first point. -/
theorem exists_split {t : K} {a : TrajPoint K} {as : List (TrajPoint K)}
    (hs : InTimeOrder (a :: as)) (ha : a.initTime ≤ t) :
    ∃ pre p post, a :: as = pre ++ p :: post ∧ p.initTime ≤ t ∧ (∀ x ∈ pre, x.initTime ≤ t) ∧
      ∀ x ∈ post, t < x.initTime := by
  induction as generalizing a with
  | nil => exact ⟨[], a, [], rfl, ha, by simp, by simp⟩
  | cons b bs ih =>
    by_cases hb : b.initTime ≤ t
    · obtain ⟨pre, p, post, h1, h2, h3, h4⟩ := ih (List.Pairwise.of_cons hs) hb
      refine ⟨a :: pre, p, post, by rw [h1]; rfl, h2, ?_, h4⟩
      intro x hx
      rcases List.mem_cons.mp hx with rfl | hx
      · exact ha
      · exact h3 x hx
    · refine ⟨[], a, b :: bs, rfl, ha, by simp, ?_⟩
      intro x hx
      push Not at hb
      rcases List.mem_cons.mp hx with rfl | hx
      · exact hb
      · exact lt_of_lt_of_le hb (List.rel_of_pairwise_cons (List.Pairwise.of_cons hs) hx)

theorem interpolate_ok [IsStrictOrderedRing K] {t : K} {p q : TrajPoint K} (h : p.initTime < q.initTime) :
    interpolateReferences t p q =
      .ok (between p.y q.y ((t - p.initTime) / (q.initTime - p.initTime)),
        between p.yDot q.yDot ((t - p.initTime) / (q.initTime - p.initTime))) := by
  have h0 : q.initTime - p.initTime ≠ 0 := (sub_pos.mpr h).ne'
  rw [interpolateReferences, if_neg h0]
  simp only [Out.ok.injEq, Prod.mk.injEq]
  constructor <;> ext <;> simp [between] <;> field_simp <;> ring

theorem dropWhile_split {t : K} (pre post : List (TrajPoint K)) (p : TrajPoint K)
    (hpre : ∀ x ∈ pre, x.initTime ≤ t) (hp : p.initTime ≤ t) (hpost : ∀ x ∈ post, t < x.initTime) :
    (pre ++ p :: post).dropWhile (fun p => decide (p.initTime ≤ t)) = post := by
  induction pre with
  | nil =>
    cases post with
    | nil => simp [hp]
    | cons q qs =>
      have : ¬ q.initTime ≤ t := not_le.mpr (hpost q (by simp))
      simp [hp, List.dropWhile, this]
  | cons a as ih =>
    have ha := hpre a (by simp)
    simp only [List.cons_append, List.dropWhile, ha, decide_true]
    exact ih (fun x hx => hpre x (by simp [hx]))

/-! ### Ellipses held by the controller -/

/-- The ellipse with given axes, angle and centre. -/
noncomputable def axesEllipse (a b θ : ℝ) (c : Vec2 ℝ) : Ellipse ℝ :=
  ⟨Ellipse.axesMatrix a b θ, (Ellipse.axesMatrix a b θ).inv, c, a, b, θ, true⟩

theorem setEllipse_cases (e₀ : Ellipse ℝ) (a b θ cx cy : ℝ) :
    (e₀.setEllipse a b θ cx cy).2 = e₀ ∨
    (0 < a ∧ 0 < b ∧ (e₀.setEllipse a b θ cx cy).2 = axesEllipse a b θ ⟨cx, cy⟩) := by
  by_cases h : (e₀.setEllipse a b θ cx cy).1 = true
  · right
    obtain ⟨h1, h2, -, -, h3⟩ := Ellipse.setEllipse_eq_true (e := (e₀.setEllipse a b θ cx cy).2)
      (show e₀.setEllipse a b θ cx cy = _ by rw [← h])
    exact ⟨h1, h2, h3⟩
  · left
    unfold Ellipse.setEllipse at h ⊢
    split_ifs at h ⊢ <;> simp_all

theorem axesEllipse_inside {a b θ : ℝ} {c : Vec2 ℝ} (ha : 0 < a) (hb : 0 < b) (p : Vec2 ℝ) :
    (axesEllipse a b θ c).isPointInside p = true ↔ InEllipse a b θ c p := by
  have hreg : (axesEllipse a b θ c).Regular := ⟨by simp [axesEllipse, Ellipse.det_axes, ha.ne', hb.ne'], rfl⟩
  have himg : ∀ g : Vec2 ℝ, (axesEllipse a b θ c).image g = inFrame c θ ⟨a * g.x, b * g.y⟩ := by
    intro g
    ext <;> simp [axesEllipse, Ellipse.image, Mat2.mulVec, Ellipse.axesMatrix, inFrame] <;> ring
  rw [Ellipse.isPointInside_iff rfl]
  constructor
  · intro hp
    exact ⟨_, _, by simpa only [Vec2.normSq, pow_two] using hp, by
      rw [← himg, Ellipse.image_generators hreg]⟩
  · rintro ⟨u, v, huv, rfl⟩
    have := himg ⟨u, v⟩
    simp only at this
    rw [← this, Ellipse.generators_image hreg]
    simpa [Vec2.normSq, pow_two] using huv

theorem inEllipse_mono {a b a' b' θ : ℝ} {c p : Vec2 ℝ} (ha : 0 < a') (hb : 0 < b') (haa : a' ≤ a)
    (hbb : b' ≤ b) (h : InEllipse a' b' θ c p) : InEllipse a b θ c p := by
  obtain ⟨u, v, huv, rfl⟩ := h
  have hA : 0 < a := lt_of_lt_of_le ha haa
  have hB : 0 < b := lt_of_lt_of_le hb hbb
  have key : ∀ s S x : ℝ, 0 < s → s ≤ S → (s / S * x) ^ 2 ≤ x ^ 2 := by
    intro s S x hs hS
    have hS0 : 0 < S := lt_of_lt_of_le hs hS
    have h1 : s / S ≤ 1 := (div_le_one hS0).mpr hS
    have h0 : 0 ≤ s / S := (div_pos hs hS0).le
    rw [mul_pow]
    have : (s / S) ^ 2 ≤ 1 := pow_le_one₀ h0 h1
    nlinarith [sq_nonneg x]
  refine ⟨a' / a * u, b' / b * v, ?_, ?_⟩
  · have := key a' a u ha haa
    have := key b' b v hb hbb
    linarith
  · have e1 : a * (a' / a * u) = a' * u := by field_simp
    have e2 : b * (b' / b * v) = b' * v := by field_simp
    rw [e1, e2]

theorem inEllipse_convex {a b θ : ℝ} {c p q : Vec2 ℝ} {k : ℝ} (h0 : 0 ≤ k) (h1 : k ≤ 1)
    (hp : InEllipse a b θ c p) (hq : InEllipse a b θ c q) :
    InEllipse a b θ c (k * p + (1 - k) * q) := by
  obtain ⟨u, v, huv, rfl⟩ := hp
  obtain ⟨u', v', huv', rfl⟩ := hq
  refine ⟨k * u + (1 - k) * u', k * v + (1 - k) * v', ?_, ?_⟩
  · nlinarith [mul_nonneg (mul_nonneg h0 (sub_nonneg.mpr h1)) (add_nonneg (sq_nonneg (u - u')) (sq_nonneg (v - v')))]
  · ext <;> simp [inFrame] <;> ring

theorem tanh_nonneg {x : ℝ} (h : 0 ≤ x) : 0 ≤ Real.tanh x := by
  rw [Real.tanh_eq_sinh_div_cosh]
  exact div_nonneg (Real.sinh_nonneg_iff.mpr h) (Real.cosh_pos x).le

/-- What every history of ellipse setters preserves: `E` is the ellipse in force, if any. -/
structure EInv (c : PersonCtrl ℝ) : Prop where
  cons : 0 ≤ c.conservative
  offA : 0 ≤ c.offsetMajor
  offB : 0 ≤ c.offsetMinor
  outer : c.outer.isSet = false ∨ ∃ a b θ d, 0 < a ∧ 0 < b ∧ c.outer = axesEllipse a b θ d
  inner : c.inner = c.outer ∨ (c.outer.isSet = true ∧ ∃ a b, 0 < a ∧ 0 < b ∧ a ≤ c.outer.semiMajor ∧
    b ≤ c.outer.semiMinor ∧ c.inner = axesEllipse a b c.outer.angle c.outer.d)

theorem EInv.new : EInv (PersonCtrl.new : PersonCtrl ℝ) where
  cons := by norm_num [PersonCtrl.new]
  offA := le_rfl
  offB := le_rfl
  outer := Or.inl rfl
  inner := Or.inl rfl

theorem setFreeSpaceEllipse_outer (c : PersonCtrl ℝ) (e : Ellipse ℝ) :
    (c.setFreeSpaceEllipse e).2.outer = e := by
  unfold setFreeSpaceEllipse
  simp only
  split_ifs <;> rfl

theorem EInv.setFreeSpaceEllipse {c : PersonCtrl ℝ} (h : EInv c) {e : Ellipse ℝ}
    (he : e.isSet = false ∨ ∃ a b θ d, 0 < a ∧ 0 < b ∧ e = axesEllipse a b θ d) :
    EInv (c.setFreeSpaceEllipse e).2 := by
  have hout := setFreeSpaceEllipse_outer c e
  refine ⟨?_, ?_, ?_, by rwa [hout], ?_⟩
  · unfold PersonCtrl.setFreeSpaceEllipse; simp only; split_ifs <;> exact h.cons
  · unfold PersonCtrl.setFreeSpaceEllipse; simp only; split_ifs <;> exact h.offA
  · unfold PersonCtrl.setFreeSpaceEllipse; simp only; split_ifs <;> exact h.offB
  · rw [hout]
    unfold PersonCtrl.setFreeSpaceEllipse
    simp only
    split_ifs with h1 h2
    · exact Or.inl rfl
    · rcases setEllipse_cases e (e.semiMajor - c.offsetMajor) (e.semiMinor - c.offsetMinor) e.angle
        e.d.x e.d.y with h3 | ⟨h3, h4, h5⟩
      · exact Or.inl h3
      · exact Or.inr ⟨h1, _, _, h3, h4, by linarith [h.offA], by linarith [h.offB], h5⟩
    · exact Or.inl rfl

/-- Every ellipse argument in the history was obtained with the axes form of `setEllipse`. -/
def FromAxesOps (ops : List (EOp ℝ)) : Prop :=
  ∀ e, EOp.setFreeSpaceEllipse e ∈ ops → e.FromAxes

theorem proper_of_fromAxes {e : Ellipse ℝ} (h : e.FromAxes) :
    e.isSet = false ∨ ∃ a b θ d, 0 < a ∧ 0 < b ∧ e = axesEllipse a b θ d := by
  rcases h with h | ⟨e₀, a, b, θ, cx, cy, h⟩
  · exact Or.inl h
  · obtain ⟨h1, h2, -, -, h3⟩ := Ellipse.setEllipse_eq_true h
    exact Or.inr ⟨a, b, θ, ⟨cx, cy⟩, h1, h2, h3⟩

theorem EInv.run {c : PersonCtrl ℝ} (h : EInv c) (o : EOp ℝ)
    (ho : ∀ e, o = EOp.setFreeSpaceEllipse e → e.FromAxes) : EInv (c.runE o).2 := by
  cases o with
  | setFreeSpaceEllipse e => exact h.setFreeSpaceEllipse (proper_of_fromAxes (ho e rfl))
  | setConservativeFactor f =>
    simp only [runE, setConservativeFactor]
    split_ifs with hf
    · exact h
    · exact ⟨not_lt.mp hf, h.offA, h.offB, h.outer, h.inner⟩
  | setInnerOffsets oa ob =>
    simp only [runE, setInnerOffsets]
    split_ifs with h1 h2
    · exact h
    · exact h
    · -- the invariant without the inner ellipse is enough
      have hout := setFreeSpaceEllipse_outer { c with offsetMajor := oa, offsetMinor := ob } c.outer
      have h' : EInv { c with offsetMajor := oa, offsetMinor := ob } :=
        ⟨h.cons, not_lt.mp h1, not_lt.mp h2, h.outer, h.inner⟩
      exact h'.setFreeSpaceEllipse h.outer

/-- State after a history of ellipse setters. -/
noncomputable def runAllE (c : PersonCtrl ℝ) (ops : List (EOp ℝ)) : PersonCtrl ℝ :=
  ops.foldl (fun s o => (s.runE o).2) c

theorem EInv.runAll (ops : List (EOp ℝ)) (hops : FromAxesOps ops) {c : PersonCtrl ℝ} (h : EInv c) :
    EInv (runAllE c ops) := by
  induction ops generalizing c with
  | nil => exact h
  | cons o os ih =>
    refine ih (fun e he => hops e (List.mem_cons_of_mem _ he)) (h.run o ?_)
    rintro e rfl
    exact hops e (by simp)

theorem blending_nonneg (c : PersonCtrl ℝ) (g : ℝ) (p : Vec2 ℝ) (θ : ℝ) (y : Vec2 ℝ) :
    0 ≤ c.blending g p θ y := by
  unfold blending
  split_ifs
  · simp only
    split
    · split_ifs
      · exact div_nonneg (abs_nonneg _) (norm_nonneg' _)
      · exact le_rfl
    · exact le_rfl
  · exact le_rfl

/-- With `EInv` and an ellipse set, the tracked reference is inside that ellipse. -/
theorem EInv.reference {c : PersonCtrl ℝ} (h : EInv c) {a b θ₀ : ℝ} {d : Vec2 ℝ} (ha : 0 < a) (hb : 0 < b)
    (hE : c.outer = axesEllipse a b θ₀ d) (g : ℝ) (p : Vec2 ℝ) (θ : ℝ) (y : Vec2 ℝ)
    (hproj : ∀ (e : Ellipse ℝ), e.Regular → ∀ p q, e.isPointInside (e.projectPointInsideEllipse p q) = true) :
    InEllipse a b θ₀ d (c.referenceInEllipse g p θ y) := by
  have hos : c.outer.isSet = true := by rw [hE]; rfl
  have hreg : ∀ a b : ℝ, 0 < a → 0 < b → (axesEllipse a b θ₀ d).Regular := fun a b ha hb =>
    ⟨by simp [axesEllipse, Ellipse.det_axes, ha.ne', hb.ne'], rfl⟩
  -- the inner ellipse is inside the outer one
  obtain ⟨a', b', ha', hb', haa, hbb, hin⟩ : ∃ a' b', 0 < a' ∧ 0 < b' ∧ a' ≤ a ∧ b' ≤ b ∧
      c.inner = axesEllipse a' b' θ₀ d := by
    rcases h.inner with h1 | ⟨-, a', b', h1, h2, h3, h4, h5⟩
    · exact ⟨a, b, ha, hb, le_rfl, le_rfl, by rw [h1, hE]⟩
    · rw [hE] at h3 h4 h5
      exact ⟨a', b', h1, h2, h3, h4, h5⟩
  have his : c.inner.isSet = true := by rw [hin]; rfl
  unfold referenceInEllipse
  simp only [his, hos, Bool.true_and, if_true]
  split_ifs with hy
  · rw [hin, axesEllipse_inside ha' hb'] at hy
    exact inEllipse_mono ha' hb' haa hbb hy
  · have hk0 : 0 ≤ Real.tanh (c.conservative * c.blending g p θ y) :=
      tanh_nonneg (mul_nonneg h.cons (blending_nonneg c g p θ y))
    have hk1 : Real.tanh (c.conservative * c.blending g p θ y) ≤ 1 := (Real.tanh_lt_one _).le
    have hi := hproj c.inner (by rw [hin]; exact hreg a' b' ha' hb') y p
    have ho := hproj c.outer (by rw [hE]; exact hreg a b ha hb) y p
    rw [hin, axesEllipse_inside ha' hb', ← hin] at hi
    rw [hE, axesEllipse_inside ha hb, ← hE] at ho
    exact inEllipse_convex hk0 hk1 (inEllipse_mono ha' hb' haa hbb hi) ho

end Uni.PersonCtrl
