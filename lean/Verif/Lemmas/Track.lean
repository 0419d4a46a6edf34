import Mathlib.Analysis.SpecialFunctions.Trigonometric.Bounds
import Verif.Spec.Forward
import Verif.Props.Steady

/-! # The way of the integrated unicycle (for C124) -/

set_option autoImplicit false
set_option linter.unusedSectionVars false

namespace Uni
open Spec
namespace Planner

variable {u : UState ℝ} {v : Control ℝ} {h : ℝ}

private theorem corner_neg (k : Nat) : goOn (corner u v h (.negSucc k)) v h = corner u v h (-(k : ℤ)) := by
  have hk : corner u v h (.negSucc k) =
      (fun w : UState ℝ => (⟨w.position - h * rot (w.angle - h * v.angular) ⟨v.forward, v.lateral⟩, w.angle - h * v.angular⟩ : UState ℝ))
        (corner u v h (-(k : ℤ))) := by
    cases k with
    | zero => rfl
    | succ k =>
      show (fun w : UState ℝ => (⟨w.position - h * rot (w.angle - h * v.angular) ⟨v.forward, v.lateral⟩, w.angle - h * v.angular⟩ : UState ℝ))^[k + 1 + 1] u = _
      rw [Function.iterate_succ_apply']
      rfl
  rw [hk]
  unfold goOn
  ext <;> simp

theorem corner_succ (n : ℤ) : corner u v h (n + 1) = goOn (corner u v h n) v h := by
  cases n with
  | ofNat k =>
    show (fun w => goOn w v h)^[k + 1] u = _
    rw [Function.iterate_succ_apply']
    rfl
  | negSucc k =>
    rw [corner_neg, Int.negSucc_eq]
    congr 1
    ring

theorem corner_zero : corner u v h 0 = u := rfl

theorem corner_angle (n : ℤ) : (corner u v h n).angle = u.angle + n * h * v.angular := by
  induction n using Int.induction_on with
  | zero => rw [corner_zero]; simp
  | succ k ih =>
    rw [corner_succ]
    show (corner u v h k).angle + h * v.angular = _
    rw [ih]; push_cast; ring
  | pred k ih =>
    have := corner_succ (u := u) (v := v) (h := h) (-(k : ℤ) - 1)
    rw [sub_add_cancel] at this
    rw [this] at ih
    replace ih : (corner u v h (-(k : ℤ) - 1)).angle + h * v.angular = _ := ih
    push_cast at ih ⊢
    linarith

/-- The way between two corners, both included. -/
theorem track_edge (hh : 0 < h) {n : ℤ} {s : ℝ} (h1 : n * h ≤ s) (h2 : s ≤ (n + 1) * h) :
    track u v h s = goOn (corner u v h n) v (s - n * h) := by
  unfold track
  have f1 : n ≤ ⌊s / h⌋ := Int.le_floor.mpr ((le_div_iff₀ hh).mpr h1)
  rcases h2.lt_or_eq with h2 | h2
  · have f2 : ⌊s / h⌋ < n + 1 := Int.floor_lt.mpr (by push_cast; rw [div_lt_iff₀ hh]; exact h2)
    rw [show ⌊s / h⌋ = n by omega]
  · have : ⌊s / h⌋ = n + 1 := by
      rw [h2, mul_div_cancel_right₀ _ hh.ne']
      exact_mod_cast Int.floor_intCast (n + 1)
    rw [this, corner_succ]
    push_cast
    rw [h2, sub_self, goOn_zero]
    congr 1
    ring

theorem track_zero (hh : 0 < h) : track u v h 0 = u := by
  rw [track_edge (n := 0) hh (by simp) (by simpa using hh.le)]
  simp [corner_zero, goOn_zero]

theorem edge_of (hh : 0 < h) (s : ℝ) : ∃ n : ℤ, n * h ≤ s ∧ s ≤ (n + 1) * h :=
  ⟨⌊s / h⌋, by rw [← le_div_iff₀ hh]; exact Int.floor_le _, by
    rw [← div_le_iff₀ hh]; exact (Int.lt_floor_add_one _).le⟩

theorem track_angle (hh : 0 < h) (s : ℝ) : (track u v h s).angle = u.angle + s * v.angular := by
  obtain ⟨n, h1, h2⟩ := edge_of hh s
  rw [track_edge hh h1 h2]
  show (corner u v h n).angle + (s - n * h) * v.angular = _
  rw [corner_angle]; ring

/-- Straight on, and on the spot, there are no corners. -/
theorem track_plain (hh : 0 < h) (hv : Plain v) (s : ℝ) : track u v h s = goOn u v s := by
  have hc : ∀ n : ℤ, corner u v h n = goOn u v (n * h) := by
    intro n
    induction n using Int.induction_on with
    | zero => rw [corner_zero]; simp [goOn_zero]
    | succ k ih =>
      rw [corner_succ, ih, goOn_add hv]
      congr 1; push_cast; ring
    | pred k ih =>
      have := corner_succ (u := u) (v := v) (h := h) (-(k : ℤ) - 1)
      rw [sub_add_cancel, ih] at this
      have h2 := congrArg (fun w => goOn w v (-h)) this
      simp only [goOn_add hv] at h2
      rw [add_neg_cancel, goOn_zero] at h2
      rw [← h2]
      congr 1; push_cast; ring
  obtain ⟨n, h1, h2⟩ := edge_of hh s
  rw [track_edge hh h1 h2, hc, goOn_add hv]
  congr 1; ring

/-- The integrated unicycle is on its way. -/
theorem drive_track (hh : 0 < h) (m : Nat) {r : ℝ} (r0 : 0 ≤ r) (r1 : r ≤ h) :
    drive v (List.replicate m h ++ [r]) u = track u v h (m * h + r) := by
  have he : ∀ (d : ℝ) (w : UState ℝ), eulerStep d w v = goOn w v d := by
    intro d w
    unfold eulerStep dynamics goOn
    ext <;> simp [rot]
  have hc : ∀ m : Nat, drive v (List.replicate m h) u = corner u v h m := by
    intro m
    induction m with
    | zero => rfl
    | succ m ih =>
      rw [List.replicate_succ']
      unfold drive at ih ⊢
      rw [List.foldl_append, ih, List.foldl_cons, List.foldl_nil, he]
      exact (corner_succ (m : ℤ)).symm
  rw [track_edge (n := m) hh (by push_cast; linarith) (by push_cast; linarith)]
  have := hc m
  unfold drive at this ⊢
  rw [List.foldl_append, this, List.foldl_cons, List.foldl_nil, he]
  congr 1; push_cast; ring

/-- What holds from point to point on every piece between two corners holds along the way. -/
theorem along_edges (hh : 0 < h) {g : ℝ → ℝ} {lo a b : ℝ} (hab : a ≤ b)
    (hg : ∀ (n : ℤ) x y, a ≤ x → y ≤ b → n * h ≤ x → x ≤ y → y ≤ (n + 1) * h → lo * (y - x) ≤ g y - g x) :
    lo * (b - a) ≤ g b - g a := by
  obtain ⟨n, n1, n2⟩ := edge_of hh a
  have key : ∀ (k : Nat) (c : ℝ), a ≤ c → c ≤ b → (n + k : ℤ) * h ≤ c → c ≤ ((n + k : ℤ) + 1) * h → lo * (c - a) ≤ g c - g a := by
    intro k
    induction k with
    | zero =>
      intro c ac cb c1 c2
      push_cast at c1 c2
      exact hg n a c le_rfl cb n1 ac (by linarith)
    | succ k ih =>
      intro c ac cb c1 c2
      push_cast at c1 c2
      have hm : a ≤ (n + k + 1) * h := by
        have : (n + 1 : ℝ) * h ≤ (n + k + 1) * h := mul_le_mul_of_nonneg_right (by linarith [(Nat.cast_nonneg k : (0 : ℝ) ≤ k)]) hh.le
        linarith
      have hc : ((n : ℝ) + k + 1) * h ≤ c := by linarith
      have i1 := ih ((n + k + 1) * h) hm (hc.trans cb) (by push_cast; nlinarith) (by push_cast; linarith)
      have i2 := hg (n + k + 1) ((n + k + 1) * h) c hm cb (by push_cast; linarith) hc (by push_cast; linarith)
      linarith
  obtain ⟨m, m1, m2⟩ := edge_of hh b
  by_cases hnm : n ≤ m
  · obtain ⟨k, rfl⟩ := Int.le.dest hnm
    exact key k b hab le_rfl m1 m2
  · refine key 0 b hab le_rfl ?_ ?_
    · push_cast; linarith
    · push_cast
      have : (m : ℝ) + 1 ≤ n := by exact_mod_cast (show m + 1 ≤ n by omega)
      nlinarith

/-- How far the unicycle comes in a direction, if it has no lateral velocity. -/
theorem track_push (hh : 0 < h) (hl : v.lateral = 0) {a b lo w1 w2 : ℝ} (hab : a ≤ b)
    (hlo : ∀ (n : ℤ) x, a ≤ x → x ≤ b → n * h ≤ x → x ≤ (n + 1) * h →
      lo ≤ v.forward * (w1 * Real.cos (u.angle + n * h * v.angular) + w2 * Real.sin (u.angle + n * h * v.angular))) :
    lo * (b - a) ≤ w1 * ((track u v h b).position.x - (track u v h a).position.x) +
      w2 * ((track u v h b).position.y - (track u v h a).position.y) := by
  have := along_edges (g := fun s => w1 * (track u v h s).position.x + w2 * (track u v h s).position.y) (lo := lo) hh hab
    (fun n x y ax yb nx xy yn => by
      have e1 := hlo n x ax (xy.trans yb) nx (xy.trans yn)
      show _ ≤ w1 * (track u v h y).position.x + w2 * (track u v h y).position.y -
        (w1 * (track u v h x).position.x + w2 * (track u v h x).position.y)
      rw [track_edge hh (nx.trans xy) yn, track_edge hh nx (xy.trans yn)]
      have e2 := mul_le_mul_of_nonneg_right e1 (show 0 ≤ y - x by linarith)
      refine e2.trans (le_of_eq ?_)
      simp only [goOn, corner_angle, rot, hl, cos_real, sin_real, Vec2.add_x, Vec2.add_y, Vec2.smul_x, Vec2.smul_y]
      ring)
  linarith

/-- A vector bounds what is gained in its direction. -/
private theorem dir_le {w1 w2 r θ : ℝ} (hr : 0 ≤ r) (hw : w1 ^ 2 + w2 ^ 2 ≤ r ^ 2) : |w1 * Real.cos θ + w2 * Real.sin θ| ≤ r := by
  apply abs_le_of_sq_le_sq _ hr
  have := Real.sin_sq_add_cos_sq θ
  nlinarith [sq_nonneg (w1 * Real.sin θ - w2 * Real.cos θ)]

/-- The unicycle does not come farther than its speed allows, in any direction. -/
theorem track_le (hh : 0 < h) (hl : v.lateral = 0) {a b w1 w2 r : ℝ} (hab : a ≤ b) (hr : 0 ≤ r) (hw : w1 ^ 2 + w2 ^ 2 ≤ r ^ 2) :
    |w1 * ((track u v h b).position.x - (track u v h a).position.x) +
      w2 * ((track u v h b).position.y - (track u v h a).position.y)| ≤ |v.forward| * r * (b - a) := by
  have key : ∀ w1 w2 : ℝ, w1 ^ 2 + w2 ^ 2 ≤ r ^ 2 → -(|v.forward| * r) * (b - a) ≤
      w1 * ((track u v h b).position.x - (track u v h a).position.x) + w2 * ((track u v h b).position.y - (track u v h a).position.y) := by
    intro w1 w2 hw
    refine track_push hh hl hab fun n x _ _ _ _ => ?_
    refine (abs_le.mp ?_).1
    rw [abs_mul]
    exact mul_le_mul_of_nonneg_left (dir_le hr hw) (abs_nonneg _)
  rw [abs_le]
  constructor
  · linarith [key w1 w2 hw]
  · linarith [key (-w1) (-w2) (by simpa using hw)]

/-- Directions close to all the headings. -/
theorem track_cone (hh : 0 < h) (hl : v.lateral = 0) {a b α β : ℝ} (hab : a ≤ b) (hα : α ≤ Real.pi / 2)
    (hβ : ∀ (n : ℤ) x, a ≤ x → x ≤ b → n * h ≤ x → x ≤ (n + 1) * h → |u.angle + n * h * v.angular - β| ≤ α) :
    Real.cos α * v.forward ^ 2 * (b - a) ≤ v.forward * (Real.cos β * ((track u v h b).position.x - (track u v h a).position.x) +
      Real.sin β * ((track u v h b).position.y - (track u v h a).position.y)) ∧
    |-(Real.sin β * ((track u v h b).position.x - (track u v h a).position.x)) +
      Real.cos β * ((track u v h b).position.y - (track u v h a).position.y)| ≤ |v.forward| * Real.sin α * (b - a) := by
  have hpi := Real.pi_pos
  constructor
  · have := track_push (u := u) (w1 := v.forward * Real.cos β) (w2 := v.forward * Real.sin β) (lo := Real.cos α * v.forward ^ 2) hh hl hab
      (fun n x h1 h2 h3 h4 => by
        have e := hβ n x h1 h2 h3 h4
        have hc : Real.cos α ≤ Real.cos (u.angle + n * h * v.angular - β) := by
          rw [← Real.cos_abs (u.angle + n * h * v.angular - β)]
          exact Real.cos_le_cos_of_nonneg_of_le_pi (abs_nonneg _) (by linarith) e
        rw [Real.cos_sub] at hc
        have := mul_le_mul_of_nonneg_right hc (sq_nonneg v.forward)
        linarith)
    linarith
  · have hs : ∀ (n : ℤ) x, a ≤ x → x ≤ b → n * h ≤ x → x ≤ (n + 1) * h → |Real.sin (u.angle + n * h * v.angular - β)| ≤ Real.sin α := by
      intro n x h1 h2 h3 h4
      have e := abs_le.mp (hβ n x h1 h2 h3 h4)
      rw [abs_le]
      constructor
      · rw [← Real.sin_neg]
        exact Real.sin_le_sin_of_le_of_le_pi_div_two (by linarith) (by linarith [e.2]) (by linarith [e.1])
      · exact Real.sin_le_sin_of_le_of_le_pi_div_two (by linarith [e.1]) hα e.2
    have hb : ∀ (n : ℤ) x, a ≤ x → x ≤ b → n * h ≤ x → x ≤ (n + 1) * h →
        |v.forward * (-Real.sin β * Real.cos (u.angle + n * h * v.angular) + Real.cos β * Real.sin (u.angle + n * h * v.angular))| ≤
          |v.forward| * Real.sin α := by
      intro n x h1 h2 h3 h4
      rw [abs_mul]
      refine mul_le_mul_of_nonneg_left ?_ (abs_nonneg _)
      have := hs n x h1 h2 h3 h4
      rw [Real.sin_sub] at this
      rwa [show -Real.sin β * Real.cos (u.angle + n * h * v.angular) + Real.cos β * Real.sin (u.angle + n * h * v.angular) =
        Real.sin (u.angle + n * h * v.angular) * Real.cos β - Real.cos (u.angle + n * h * v.angular) * Real.sin β by ring]
    rw [abs_le]
    constructor
    · have := track_push (u := u) (w1 := -Real.sin β) (w2 := Real.cos β) (lo := -(|v.forward| * Real.sin α)) hh hl hab
        (fun n x h1 h2 h3 h4 => (abs_le.mp (hb n x h1 h2 h3 h4)).1)
      linarith
    · have := track_push (u := u) (w1 := Real.sin β) (w2 := -Real.cos β) (lo := -(|v.forward| * Real.sin α)) hh hl hab
        (fun n x h1 h2 h3 h4 => by linarith [(abs_le.mp (hb n x h1 h2 h3 h4)).2])
      linarith

/-- The corners that belong to a part of the way. -/
theorem headings_near (hh : 0 < h) {a b x y : ℝ} {n m : ℤ} (hx : a ≤ x ∧ x ≤ b) (hy : a ≤ y ∧ y ≤ b)
    (n1 : n * h ≤ x) (n2 : x ≤ (n + 1) * h) (m1 : m * h ≤ y) (m2 : y ≤ (m + 1) * h) :
    |u.angle + n * h * v.angular - (u.angle + m * h * v.angular)| ≤ |v.angular| * (b - a + h) := by
  rw [show u.angle + n * h * v.angular - (u.angle + m * h * v.angular) = v.angular * (n * h - m * h) by ring, abs_mul]
  refine mul_le_mul_of_nonneg_left (abs_le.mpr ⟨?_, ?_⟩) (abs_nonneg _)
  · linarith [hx.1, hx.2, hy.1, hy.2]
  · linarith [hx.1, hx.2, hy.1, hy.2]

/-- Two parts of the way go in similar directions. -/
theorem track_dot (hh : 0 < h) (hl : v.lateral = 0) {a b c d lo hi α : ℝ} (hab : a ≤ b) (hcd : c ≤ d) (ha : lo ≤ a) (hb : b ≤ hi)
    (hc : lo ≤ c) (hd : d ≤ hi) (hα : α ≤ Real.pi / 2) (hs : |v.angular| * (hi - lo + h) ≤ α) :
    Real.cos α * v.forward ^ 2 * (b - a) * (d - c) ≤
      ((track u v h b).position.x - (track u v h a).position.x) * ((track u v h d).position.x - (track u v h c).position.x) +
      ((track u v h b).position.y - (track u v h a).position.y) * ((track u v h d).position.y - (track u v h c).position.y) := by
  refine track_push hh hl hcd fun n x h1 h2 h3 h4 => ?_
  have := (track_cone (u := u) (β := u.angle + n * h * v.angular) hh hl hab hα fun m y k1 k2 k3 k4 =>
    (headings_near (a := lo) (b := hi) hh ⟨ha.trans k1, k2.trans hb⟩ ⟨hc.trans h1, h2.trans hd⟩ k3 k4 h3 h4).trans hs).1
  linarith

end Planner
end Uni
