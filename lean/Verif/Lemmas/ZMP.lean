import Verif.Model.ZMP
import Verif.Lemmas.Loop
import Verif.Lemmas.Spline
import Verif.Lemmas.Round
import Verif.Props.Generator
import Verif.Spec.Zmp

/-! # The weights on the feet and the ZMP -/

set_option autoImplicit false
set_option linter.unusedSectionVars false

namespace Uni
open Spec Gen

section
variable {S O : Type} {K : Type} [Field K] [LinearOrder K] [IsStrictOrderedRing K] [FloorRing K]
variable {cfg : GenSettings K} {left right : FootPrint K} {initTime dT : K} {sorted ordered : List (Ptr K)} {t : Timing K}

/-- Where a sample comes from, for the loop over the phases of a timeline. -/
theorem overPhases_at (h : timeline cfg left right initTime dT sorted = .ok (ordered, t))
    {body : Nat → Bool → Phase → Nat → Nat → S → Out (S × List O)}
    (hb : ∀ k b p i j s s' l, body k b p i j s = .ok (s', l) → l.length = j - i) {phases : List Phase}
    (hph : phases = t.left ∨ phases = t.right) {s s' : S} {out : List O} (ho : overPhases body phases t.shifts s = .ok (s', out)) :
    out.length = t.left.length ∧ ∀ j, j < out.length → ∃ i a b p s1 s2 l, t.shifts[i]? = some a ∧ t.shifts[i + 1]? = some b ∧
      a ≤ j ∧ j < b ∧ (∀ m, a ≤ m → m < b → phases[m]? = some p) ∧
      body (1 + i) (decide (i + 2 = t.shifts.length)) p a b s1 = .ok (s2, l) ∧ out[j]? = l[j - a]? := by
  obtain ⟨-, p2, p3, -, p5⟩ := C34_partition h
  unfold overPhases at ho
  obtain ⟨q1, q2⟩ := phaseLoop_at hb ho
  have e : (0 :: t.shifts.tail) = t.shifts := by
    cases hsh : t.shifts with
    | nil => rw [hsh] at p3; simp at p3
    | cons a l => rw [hsh] at p3; simp at p3; simp [p3]
  have el : t.shifts.tail.length + 1 = t.shifts.length := by rw [← e]; simp
  rw [e] at q1 q2
  refine ⟨?_, ?_⟩
  · rw [List.getLastD_eq_getLast?, p2] at q1
    simpa using q1
  · intro j hj
    obtain ⟨i, a, b, p, s1, s2, l, h1, h2, h3, h4, h5, h6, h7⟩ := q2 j hj
    simp only [Nat.zero_add] at h3 h4 h7
    obtain ⟨pl, pr, hpp⟩ := p5 i a b h1 h2
    refine ⟨i, a, b, p, s1, s2, l, h1, h2, h3, h4, ?_, ?_, h7⟩
    · intro m m1 m2
      rcases hph with rfl | rfl
      · have := (hpp a (le_refl _) (by omega)).1
        rw [h5] at this
        cases this
        exact (hpp m m1 m2).1
      · have := (hpp a (le_refl _) (by omega)).2
        rw [h5] at this
        cases this
        exact (hpp m m1 m2).2
    · rw [show decide (i + 2 = t.shifts.length) = decide (i + 1 = t.shifts.tail.length) by
        congr 1; rw [← el]; exact propext ⟨fun h => by omega, fun h => by omega⟩]
      exact h6

/-- The loop over the phases succeeds if every phase does. -/
theorem runSegs_exists {body : Nat → Bool → Phase → Nat → Nat → S → Out (S × List O)} (N : Nat) (segs : List Seg)
    (hpos : ∀ g ∈ segs, 0 < g.2) (phase start : Nat) (s : S) (hN : start + total segs ≤ N)
    (hb : ∀ k b p i j s, i < j → j ≤ N → ∃ r, body k b p i j s = .ok r) :
    ∃ r, runSegs body segs phase start s = .ok r := by
  induction segs generalizing phase start s with
  | nil => exact ⟨_, rfl⟩
  | cons g gs ih =>
    have hg := hpos g (by simp)
    have ht : total (g :: gs) = g.2 + total gs := by simp [total]
    obtain ⟨r1, h1⟩ := hb phase gs.isEmpty g.1 start (start + g.2) s (by omega) (by omega)
    obtain ⟨r2, h2⟩ := ih (fun g hg => hpos g (by simp [hg])) (phase + 1) (start + g.2) r1.1 (by omega)
    exact ⟨(r2.1, r1.2 ++ r2.2), by simp only [runSegs, h1, Out.bind_ok, h2]⟩

theorem segs_pos {tt : Timetable} (hp : tt.Positive) (f : Bool) : ∀ g ∈ tt.segs f, 0 < g.2 := by
  intro g hg
  unfold Timetable.segs at hg
  rw [List.mem_append, List.mem_flatMap, List.mem_singleton] at hg
  rcases hg with ⟨s, hs, hg⟩ | rfl
  · have := hp.1 s hs
    unfold Slot.segs at hg
    split_ifs at hg <;> simp at hg <;> rcases hg with rfl | rfl <;> simp [this]
  · exact hp.2

/-- The loop over the phases of a timeline succeeds if every phase does. -/
theorem overPhases_exists (h : timeline cfg left right initTime dT sorted = .ok (ordered, t)) (hpos : t.shifts.Pairwise (· < ·))
    {body : Nat → Bool → Phase → Nat → Nat → S → Out (S × List O)} {phases : List Phase}
    (hph : phases = t.left ∨ phases = t.right)
    (hb : ∀ k b p i j s, i < j → j ≤ phases.length → ∃ r, body k b p i j s = .ok r) (s : S) :
    ∃ r, overPhases body phases t.shifts s = .ok r := by
  obtain ⟨l, r, tt, hr⟩ := timeline_ok h
  have hp : tt.Positive := positive_of_shifts (by rw [← hr.built.shifts]; exact hpos)
  have : ∃ f, phases = tt.phases f := by
    rcases hph with h | h
    · exact ⟨true, h.trans hr.built.left⟩
    · exact ⟨false, h.trans hr.built.right⟩
  obtain ⟨f, hf⟩ := this
  rw [hr.built.shifts, hf, overPhases_timetable _ tt f hp]
  refine runSegs_exists phases.length _ (segs_pos hp f) 1 0 s ?_ hb
  rw [hf]
  simp [Timetable.phases, length_expand]

end

namespace Zmp
variable {K : Type} [Field K] [LinearOrder K] [IsStrictOrderedRing K] [FloorRing K]

@[simp] theorem length_samples {O : Type} (dT : K) (f : K → O) (n : Nat) : (samples dT f n).length = n := by simp [samples]

theorem getElem?_samples {O : Type} (dT : K) (f : K → O) (n j : Nat) (h : j < n) :
    (samples dT f n)[j]? = some (f ((j : K) * dT)) := by
  simp [samples, h]

theorem spline2_inv {y0 v0 y1 v1 T : K} {f : K → Motion K} (h : spline2 y0 v0 y1 v1 T = .ok f) :
    0 < T ∧ f = hermite y0 v0 y1 v1 T := by
  unfold spline2 at h
  split_ifs at h with hT
  cases h
  exact ⟨not_le.mp hT, rfl⟩

/-- A cubic that ends at rest stays between its ends if it starts slowly enough in the right direction. -/
theorem hermite_between {y0 v0 y1 T t : K} (hT : 0 < T) (h0 : 0 ≤ t) (h1 : t ≤ T) (hv0 : 0 ≤ v0 * T)
    (hv1 : v0 * T ≤ 3 * (y1 - y0)) :
    y0 ≤ (hermite y0 v0 y1 0 T t).pos ∧ (hermite y0 v0 y1 0 T t).pos ≤ y1 := by
  have a := div_nonneg h0 hT.le
  have b := (div_le_one hT).mpr h1
  rw [hermite_pos _ _ _ _ hT.ne']
  set s := t / T
  have hs : 0 ≤ s * (1 - s) ^ 2 := mul_nonneg a (sq_nonneg _)
  have e := ease_nonneg a b
  unfold ease at e
  constructor
  · have := mul_nonneg hv0 hs
    have := mul_nonneg (by linarith : 0 ≤ y1 - y0) e
    nlinarith
  · have h2 : (v0 * T) * (s * (1 - s) ^ 2) ≤ 3 * (y1 - y0) * (s * (1 - s) ^ 2) := mul_le_mul_of_nonneg_right hv1 hs
    have h3 : 0 ≤ (y1 - y0) * (1 - s) ^ 3 := mul_nonneg (by linarith) (pow_nonneg (by linarith) 3)
    nlinarith

theorem hermite_neg (y0 v0 y1 v1 T t : K) : (hermite (-y0) (-v0) (-y1) (-v1) T t).pos = -(hermite y0 v0 y1 v1 T t).pos := by
  simp only [hermite]; ring

theorem hermite_between' {y0 v0 y1 T t : K} (hT : 0 < T) (h0 : 0 ≤ t) (h1 : t ≤ T) (hv0 : v0 * T ≤ 0)
    (hv1 : 3 * (y1 - y0) ≤ v0 * T) :
    y1 ≤ (hermite y0 v0 y1 0 T t).pos ∧ (hermite y0 v0 y1 0 T t).pos ≤ y0 := by
  have := hermite_between (y0 := -y0) (v0 := -v0) (y1 := -y1) hT h0 h1 (by linarith) (by linarith)
  rw [← neg_zero, hermite_neg] at this
  exact ⟨by linarith [this.2], by linarith [this.1]⟩

/-- Numbers of samples of a double support with a pause. -/
theorem pause_counts {c : ZmpTimes K} {dT : K} {n : Nat} (hd : 0 < dT) (he : 0 ≤ c.endSwitch) (hn : 0 ≤ c.nominalSwitch)
    (hp : c.pauses dT n = true) :
    let a := (stdRound (c.endSwitch / dT)).toNat
    let r := (stdRound (c.nominalSwitch / dT)).toNat
    a + ((n : ℤ) - stdRound (c.nominalSwitch / dT) - a).toNat + r = n ∧ c.endSwitch < (n : K) * dT := by
  simp only [ZmpTimes.pauses, Bool.and_eq_true, decide_eq_true_eq, max_lt_iff] at hp
  obtain ⟨-, -, hp⟩ := hp
  have h1 := stdRound_nonneg (div_nonneg he hd.le)
  have h2 := stdRound_nonneg (div_nonneg hn hd.le)
  have b1 := (stdRound_bounds (c.endSwitch / dT)).1
  have b2 := (stdRound_bounds (c.nominalSwitch / dT)).1
  have h3 : c.endSwitch / dT + c.nominalSwitch / dT < n := by
    rw [← add_div, div_lt_iff₀ hd]; exact hp
  have h4 : ((stdRound (c.endSwitch / dT) + stdRound (c.nominalSwitch / dT) : ℤ) : K) < ((n + 1 : ℤ) : K) := by
    push_cast; linarith
  have h5 := Int.cast_lt.mp h4
  simp only
  constructor
  · omega
  · linarith

theorem weightBody_length (c : ZmpTimes K) (init : Motion K) (phases : List Phase) (dT : K) (k : Nat) (b : Bool) (p : Phase)
    (i j : Nat) (s s' : Unit) (l : List (Motion K)) (h : weightBody c init phases dT k b p i j s = .ok (s', l)) :
    l.length = j - i := by
  have sw : (p = .switchIn ∨ p = .switchOut) → l.length = j - i := by
    intro hp
    have h' : ∃ y0 v0, (if c.pauses dT (j - i) then (do
        let f ← spline2 y0 v0 (1 / 2) 0 c.endSwitch
        let a := (stdRound (c.endSwitch / dT)).toNat
        let h := (((j - i : Nat) : ℤ) - stdRound (c.nominalSwitch / dT) - a).toNat
        if j - i < a + h then Out.ub .unsignedWrap
        else do
          let y1 ← finalWeight phases b (i + a + h)
          let g ← spline2 (1 / 2) 0 y1 0 (((j - i - (a + h) : Nat) : K) * dT)
          Out.ok (s, samples dT f a ++ List.replicate h ⟨1 / 2, 0, 0⟩ ++ samples dT g (j - i - (a + h))))
      else do
        let y1 ← finalWeight phases b i
        let f ← spline2 y0 v0 y1 0 (((j - i : Nat) : K) * dT)
        Out.ok (s, samples dT f (j - i))) = Out.ok (s', l) := by
      rcases hp with rfl | rfl <;> exact ⟨_, _, h⟩
    obtain ⟨y0, v0, h'⟩ := h'
    split_ifs at h'
    · rw [Out.bind_eq_ok] at h'
      obtain ⟨f, -, h'⟩ := h'
      simp only at h'
      split_ifs at h' with hle
      rw [Out.bind_eq_ok] at h'
      obtain ⟨y1, -, h'⟩ := h'
      rw [Out.bind_eq_ok] at h'
      obtain ⟨g, -, h'⟩ := h'
      cases h'
      simp only [List.length_append, length_samples, List.length_replicate]
      omega
    · rw [Out.bind_eq_ok] at h'
      obtain ⟨y1, -, h'⟩ := h'
      rw [Out.bind_eq_ok] at h'
      obtain ⟨g, -, h'⟩ := h'
      cases h'
      simp
  cases p
  case switchIn => exact sw (Or.inl rfl)
  case switchOut => exact sw (Or.inr rfl)
  all_goals
    simp only [weightBody] at h
    cases h
    simp

/-- The weight at the end of a double support. -/
def target (last : Bool) (p : Phase) : K := if last then 1 / 2 else if p = .switchIn then 1 else 0

theorem finalWeight_eq {phases : List Phase} {last : Bool} {i : Nat} {p : Phase} (h : phases[i]? = some p) :
    finalWeight (K := K) phases last i = .ok (target last p) := by
  unfold finalWeight target
  split_ifs <;> simp_all

/-- The weight at the beginning of a double support. -/
def origin (init : Motion K) (phase : Nat) (p : Phase) : K := if phase = 1 then init.pos else if p = .switchIn then 0 else 1

/-- Its velocity. -/
def originV (init : Motion K) (phase : Nat) : K := if phase = 1 then init.vel else 0

theorem weightBody_single {c : ZmpTimes K} {init : Motion K} {phases : List Phase} {dT : K} {k : Nat} {b : Bool} {p : Phase}
    {i j : Nat} {s s' : Unit} {l : List (Motion K)} (h : weightBody c init phases dT k b p i j s = .ok (s', l))
    (hp : p = .stance ∨ p = .swing) (hph : ∀ m, i ≤ m → m < j → phases[m]? = some p) (m : Nat) (hm : m < j - i) :
    l[m]? = some ⟨if p = .stance then 1 else 0, 0, 0⟩ := by
  have h' : Out.ok (s, (List.range (j - i)).map fun m => (⟨if phases[i + m]? = some .stance then 1 else 0, 0, 0⟩ : Motion K)) =
      Out.ok (s', l) := by rcases hp with rfl | rfl <;> exact h
  cases h'
  rw [List.getElem?_map, List.getElem?_range hm, Option.map_some, hph (i + m) (by omega) (by omega)]
  simp

theorem weightBody_double {c : ZmpTimes K} {init : Motion K} {phases : List Phase} {dT : K} {k : Nat} {b : Bool} {p : Phase}
    {i j : Nat} {s s' : Unit} {l : List (Motion K)} (hd : 0 < dT) (he : 0 ≤ c.endSwitch) (hn : 0 ≤ c.nominalSwitch)
    (h : weightBody c init phases dT k b p i j s = .ok (s', l)) (hp : p = .switchIn ∨ p = .switchOut)
    (hph : ∀ m, i ≤ m → m < j → phases[m]? = some p) (hij : i < j) (m : Nat) (hm : m < j - i) :
    (c.pauses dT (j - i) = false →
      l[m]? = some (hermite (origin init k p) (originV init k) (target b p) 0 (((j - i : Nat) : K) * dT) ((m : K) * dT))) ∧
    (c.pauses dT (j - i) = true →
      let a := (stdRound (c.endSwitch / dT)).toNat
      let r := (stdRound (c.nominalSwitch / dT)).toNat
      0 < c.endSwitch ∧ 0 < r ∧ a + r ≤ j - i ∧
      (m < a → l[m]? = some (hermite (origin init k p) (originV init k) (1 / 2) 0 c.endSwitch ((m : K) * dT))) ∧
      (a ≤ m → m + r < j - i → l[m]? = some ⟨1 / 2, 0, 0⟩) ∧
      (j - i ≤ m + r → l[m]? = some (hermite (1 / 2) 0 (target b p) 0 ((r : K) * dT) (((m + r - (j - i) : Nat) : K) * dT)))) := by
  have h' : (if c.pauses dT (j - i) then (do
        let f ← spline2 (origin init k p) (originV init k) (1 / 2) 0 c.endSwitch
        let a := (stdRound (c.endSwitch / dT)).toNat
        let h := (((j - i : Nat) : ℤ) - stdRound (c.nominalSwitch / dT) - a).toNat
        if j - i < a + h then Out.ub .unsignedWrap
        else do
          let y1 ← finalWeight phases b (i + a + h)
          let g ← spline2 (1 / 2) 0 y1 0 (((j - i - (a + h) : Nat) : K) * dT)
          Out.ok (s, samples dT f a ++ List.replicate h ⟨1 / 2, 0, 0⟩ ++ samples dT g (j - i - (a + h))))
      else do
        let y1 ← finalWeight phases b i
        let f ← spline2 (origin init k p) (originV init k) y1 0 (((j - i : Nat) : K) * dT)
        Out.ok (s, samples dT f (j - i))) = Out.ok (s', l) := by
    rcases hp with rfl | rfl <;> exact h
  refine ⟨fun hf => ?_, fun ht => ?_⟩
  · rw [hf, if_neg (by simp), finalWeight_eq (hph i (le_refl _) hij), Out.bind_ok, Out.bind_eq_ok] at h'
    obtain ⟨f, h1, h'⟩ := h'
    cases h'
    rw [(spline2_inv h1).2, getElem?_samples _ _ _ _ hm]
  · have hc := pause_counts hd he hn ht
    rw [ht, if_pos rfl, Out.bind_eq_ok] at h'
    obtain ⟨f, h1, h'⟩ := h'
    simp only at h' hc ⊢
    obtain ⟨hc, -⟩ := hc
    set a := (stdRound (c.endSwitch / dT)).toNat
    set q := (((j - i : Nat) : ℤ) - stdRound (c.nominalSwitch / dT) - a).toNat
    set r := (stdRound (c.nominalSwitch / dT)).toNat
    rw [if_neg (by omega), Out.bind_eq_ok] at h'
    obtain ⟨y1, h2, h'⟩ := h'
    rw [Out.bind_eq_ok] at h'
    obtain ⟨g, h3, h'⟩ := h'
    cases h'
    obtain ⟨h3a, h3b⟩ := spline2_inv h3
    obtain ⟨h1a, h1b⟩ := spline2_inv h1
    have er : j - i - (a + q) = r := by omega
    rw [er] at h3a h3b ⊢
    have hr : 0 < r := by
      rcases Nat.eq_zero_or_pos r with h0 | h0
      · rw [h0] at h3a; simp at h3a
      · exact h0
    rw [finalWeight_eq (hph (i + a + q) (by omega) (by omega))] at h2
    cases h2
    refine ⟨h1a, hr, by omega, fun hm => ?_, fun h4 h5 => ?_, fun h4 => ?_⟩
    · rw [List.append_assoc, List.getElem?_append_left (by simpa using hm), getElem?_samples _ _ _ _ hm, h1b]
    · rw [List.append_assoc, List.getElem?_append_right (by simpa using h4), length_samples,
        List.getElem?_append_left (by simp; omega), List.getElem?_replicate, if_pos (by omega)]
    · rw [List.getElem?_append_right (by simp; omega), List.length_append, length_samples, List.length_replicate,
        getElem?_samples _ _ _ _ (by omega), h3b, show m - (a + q) = m + r - (j - i) by omega]

/-- Which double supports can be interpolated. -/
theorem weightBody_exists {c : ZmpTimes K} (init : Motion K) {phases : List Phase} {dT : K} (hd : 0 < dT) (he : 0 < c.endSwitch)
    (hn0 : 0 ≤ c.nominalSwitch) (hn : c.pauseActive = true → dT / 2 ≤ c.nominalSwitch) (k : Nat) (b : Bool) (p : Phase)
    (i j : Nat) (s : Unit) (hij : i < j) (hj : j ≤ phases.length) : ∃ r, weightBody c init phases dT k b p i j s = .ok r := by
  have hn' : (0 : K) < ((j - i : Nat) : K) := by exact_mod_cast (by omega : 0 < j - i)
  have hfw : ∀ m, m < phases.length → ∃ y, finalWeight (K := K) phases b m = .ok y := fun m hm =>
    ⟨_, finalWeight_eq (List.getElem?_eq_getElem hm)⟩
  have sw : ∀ y0 v0 : K, ∃ r, (if c.pauses dT (j - i) then (do
        let f ← spline2 y0 v0 (1 / 2) 0 c.endSwitch
        let a := (stdRound (c.endSwitch / dT)).toNat
        let h := (((j - i : Nat) : ℤ) - stdRound (c.nominalSwitch / dT) - a).toNat
        if j - i < a + h then Out.ub .unsignedWrap
        else do
          let y1 ← finalWeight phases b (i + a + h)
          let g ← spline2 (1 / 2) 0 y1 0 (((j - i - (a + h) : Nat) : K) * dT)
          Out.ok (s, samples dT f a ++ List.replicate h (⟨1 / 2, 0, 0⟩ : Motion K) ++ samples dT g (j - i - (a + h))))
      else do
        let y1 ← finalWeight phases b i
        let f ← spline2 y0 v0 y1 0 (((j - i : Nat) : K) * dT)
        Out.ok (s, samples dT f (j - i))) = Out.ok r := by
    intro y0 v0
    split_ifs with hp
    · have hc := (pause_counts hd he.le hn0 hp).1
      have hn := hn (by simp only [ZmpTimes.pauses, Bool.and_eq_true] at hp; exact hp.1)
      rw [spline2_ok _ _ _ _ he, Out.bind_ok]
      simp only at hc ⊢
      set a := (stdRound (c.endSwitch / dT)).toNat
      set q := (((j - i : Nat) : ℤ) - stdRound (c.nominalSwitch / dT) - a).toNat
      have hr : 0 < (stdRound (c.nominalSwitch / dT)).toNat := by
        have := stdRound_pos (x := c.nominalSwitch / dT) (by rw [le_div_iff₀ hd]; linarith)
        omega
      rw [if_neg (by omega)]
      obtain ⟨y1, hy⟩ := hfw (i + a + q) (by omega)
      rw [hy, Out.bind_ok, spline2_ok _ _ _ _ (mul_pos (by exact_mod_cast (by omega : 0 < j - i - (a + q))) hd)]
      exact ⟨_, rfl⟩
    · obtain ⟨y1, hy⟩ := hfw i (by omega)
      rw [hy, Out.bind_ok, spline2_ok _ _ _ _ (mul_pos hn' hd)]
      exact ⟨_, rfl⟩
  cases p
  case switchIn => exact sw _ _
  case switchOut => exact sw _ _
  all_goals exact ⟨_, rfl⟩

/-! ## States at the merge points -/

theorem recordStates_at {merges : List Nat} (hm : merges.Pairwise (· < ·)) (ws : List (Motion K)) (instant m : Nat)
    (states : List (Motion K)) (hlen : states.length = merges.length) (hlt : m < merges.length)
    (hP : (∀ (k x : Nat), m ≤ k → merges[k]? = some x → instant ≤ x) ∨
      (m + 1 = merges.length ∧ ∀ x, merges[m]? = some x → x < instant)) :
    ∃ st, recordStates merges ws instant m states = .ok st ∧ st.length = merges.length ∧
      ∀ (k x : Nat), merges[k]? = some x →
        (m ≤ k → instant ≤ x → x < instant + ws.length → st[k]? = ws[x - instant]?) ∧
        (k < m ∨ x < instant ∨ instant + ws.length ≤ x → st[k]? = states[k]?) := by
  induction ws generalizing instant m states with
  | nil =>
    refine ⟨states, rfl, hlen, fun k x hk => ⟨fun h1 h2 h3 => ?_, fun _ => rfl⟩⟩
    simp at h3; omega
  | cons w ws ih =>
    have hmx : merges[m]? = some merges[m] := List.getElem?_eq_getElem hlt
    have hstr : ∀ (i j x y : Nat), merges[i]? = some x → merges[j]? = some y → i < j → x < y := by
      intro i j x y hi hj hij
      obtain ⟨a1, a2⟩ := List.getElem?_eq_some_iff.mp hi
      obtain ⟨b1, b2⟩ := List.getElem?_eq_some_iff.mp hj
      rw [← a2, ← b2]
      exact List.pairwise_iff_getElem.mp hm i j a1 b1 hij
    simp only [recordStates, hmx]
    by_cases hi : instant = merges[m]
    · rw [if_pos hi]
      obtain ⟨st, h1, h2, h3⟩ := ih (instant + 1) (if m < merges.length - 1 then m + 1 else m) (states.set m w)
        (by simpa using hlen) (by split_ifs <;> omega) (by
          split_ifs with hc
          · left
            intro k x hk hx
            have := hstr m k _ _ hmx hx (by omega)
            omega
          · right
            refine ⟨by omega, fun x hx => ?_⟩
            rw [hmx] at hx; cases hx; omega)
      refine ⟨st, h1, h2, fun k x hk => ⟨fun a b c => ?_, fun a => ?_⟩⟩
      · by_cases hkm : k = m
        · subst hkm
          rw [hmx] at hk; cases hk
          have := (h3 k _ hmx).2 (by right; left; omega)
          rw [this, List.getElem?_set_self (by rw [hlen]; exact hlt), hi, Nat.sub_self]; rfl
        · have hlt2 : m < k := by omega
          have h4 := hstr m k _ _ hmx hk hlt2
          have hk2 := (List.getElem?_eq_some_iff.mp hk).1
          have := (h3 k x hk).1 (by split_ifs <;> omega) (by omega) (by simp at c; omega)
          rw [this, show x - instant = (x - (instant + 1)) + 1 by omega, List.getElem?_cons_succ]
      · have hkm : k ≠ m := by
          rintro rfl
          rw [hmx] at hk; cases hk
          simp at a; omega
        rw [(h3 k x hk).2 ?_, List.getElem?_set_ne (Ne.symm hkm)]
        rcases a with a | a | a
        · left; split_ifs <;> omega
        · right; left; omega
        · right; right; simp at a; omega
    · rw [if_neg hi]
      obtain ⟨st, h1, h2, h3⟩ := ih (instant + 1) m states hlen hlt (by
        rcases hP with hP | ⟨e, hP⟩
        · left
          intro k x hk hx
          have h5 := hP k x hk hx
          have h6 := hP m _ (le_refl _) hmx
          by_cases hkm : k = m
          · subst hkm; rw [hmx] at hx; cases hx; omega
          · have := hstr m k _ _ hmx hx (by omega)
            omega
        · right
          exact ⟨e, fun x hx => by have := hP x hx; omega⟩)
      refine ⟨st, h1, h2, fun k x hk => ⟨fun a b c => ?_, fun a => ?_⟩⟩
      · have hx : instant ≠ x := by
          rintro rfl
          by_cases hkm : k = m
          · subst hkm; rw [hmx] at hk; cases hk; exact hi rfl
          · have h4 := hstr m k _ _ hmx hk (by omega)
            rcases hP with hP | ⟨e, hP⟩
            · have := hP m _ (le_refl _) hmx; omega
            · have := (List.getElem?_eq_some_iff.mp hk).1; omega
        rw [(h3 k x hk).1 a (by omega) (by simp at c; omega), show x - instant = (x - (instant + 1)) + 1 by omega,
          List.getElem?_cons_succ]
      · refine (h3 k x hk).2 ?_
        rcases a with a | a | a
        · left; exact a
        · right; left; omega
        · right; right; simp at a; omega

theorem length_resizeStates (states : List (Motion K)) (n : Nat) : (resizeStates states n).length = n := by
  simp [resizeStates]; omega

/-! ## The ZMP in the frame of a foot -/

theorem move_inv {p q : Vec2 K} {T : K} {f : K → Motion2 K} (h : move p q T = .ok f) :
    0 < T ∧ f = fun t => (hermite p.x 0 q.x 0 T t, hermite p.y 0 q.y 0 T t) := by
  unfold move at h
  rw [Out.bind_eq_ok] at h
  obtain ⟨x, hx, h⟩ := h
  rw [Out.bind_eq_ok] at h
  obtain ⟨y, hy, h⟩ := h
  cases h
  obtain ⟨h1, rfl⟩ := spline2_inv hx
  obtain ⟨-, rfl⟩ := spline2_inv hy
  exact ⟨h1, rfl⟩

theorem move_ok (p q : Vec2 K) {T : K} (hT : 0 < T) :
    move p q T = .ok fun t => (hermite p.x 0 q.x 0 T t, hermite p.y 0 q.y 0 T t) := by
  unfold move
  rw [spline2_ok _ _ _ _ hT, spline2_ok _ _ _ _ hT]
  rfl

theorem backTime_le {c : ZmpTimes K} {dT : K} {last : Bool} {n : Nat} (hd : 0 < dT) (hn : 0 ≤ c.nominalSwitch) :
    backTime c dT last n ≤ (n : K) * dT := by
  have h0 : 0 ≤ (n : K) * dT := mul_nonneg (Nat.cast_nonneg n) hd.le
  unfold backTime
  split_ifs with h1 h2
  · simp only [ZmpTimes.pauses, Bool.and_eq_true, decide_eq_true_eq, max_lt_iff] at h1
    linarith [h1.2.2]
  · exact le_refl _
  · linarith

theorem ceil_le_of {dT T : K} {n : Nat} (hd : 0 < dT) (h : T ≤ (n : K) * dT) : ⌈T / dT⌉.toNat ≤ n := by
  have : ⌈T / dT⌉ ≤ (n : ℤ) := by
    rw [Int.ceil_le]
    push_cast
    rw [div_le_iff₀ hd]; exact h
  omega

theorem localBody_length (c : ZmpTimes K) (stance switch : Vec2 K) (dT : K) (k : Nat) (b : Bool) (p : Phase)
    (i j : Nat) (s s' : Unit) (l : List (Motion2 K)) (h : localBody c stance switch dT k b p i j s = .ok (s', l)) :
    l.length = j - i := by
  cases p <;> simp only [localBody] at h
  case swing => cases h; simp
  case switchIn => cases h; simp
  case stance =>
    rw [Out.bind_eq_ok] at h
    obtain ⟨f, -, h⟩ := h
    cases h; simp
  case switchOut =>
    by_cases h1 : k = 1
    · rw [if_pos h1] at h; cases h; simp
    rw [if_neg h1, Out.bind_eq_ok] at h
    obtain ⟨f, -, h⟩ := h
    split_ifs at h with h2
    cases h
    simp only [List.length_append, length_samples, List.length_replicate]
    omega

/-- The samples of the ZMP in the frame of a foot. -/
theorem localBody_at {c : ZmpTimes K} {stance switch : Vec2 K} {dT : K} {k : Nat} {b : Bool} {p : Phase}
    {i j : Nat} {s s' : Unit} {l : List (Motion2 K)} (hd : 0 < dT)
    (h : localBody c stance switch dT k b p i j s = .ok (s', l)) (m : Nat) (hm : m < j - i) :
    ((p = .swing ∨ p = .switchIn ∨ (p = .switchOut ∧ k = 1)) → l[m]? = some (still stance)) ∧
    (p = .stance → l[m]? = some (hermite stance.x 0 switch.x 0 (((j - i : Nat) : K) * dT) ((m : K) * dT),
      hermite stance.y 0 switch.y 0 (((j - i : Nat) : K) * dT) ((m : K) * dT))) ∧
    (p = .switchOut → k ≠ 1 → 0 < backTime c dT b (j - i) ∧
      ((m : K) * dT < backTime c dT b (j - i) →
        l[m]? = some (hermite switch.x 0 stance.x 0 (backTime c dT b (j - i)) ((m : K) * dT),
          hermite switch.y 0 stance.y 0 (backTime c dT b (j - i)) ((m : K) * dT))) ∧
      (backTime c dT b (j - i) ≤ (m : K) * dT → l[m]? = some (still stance))) := by
  cases p <;> simp only [localBody] at h
  case swing => cases h; simp [hm]
  case switchIn => cases h; simp [hm]
  case stance =>
    rw [Out.bind_eq_ok] at h
    obtain ⟨f, hf, h⟩ := h
    cases h
    obtain ⟨-, rfl⟩ := move_inv hf
    refine ⟨by simp, fun _ => ?_, by simp⟩
    rw [getElem?_samples _ _ _ _ hm]
  case switchOut =>
    by_cases h1 : k = 1
    · rw [if_pos h1] at h; cases h; simp [hm, h1]
    rw [if_neg h1, Out.bind_eq_ok] at h
    obtain ⟨f, hf, h⟩ := h
    obtain ⟨hT, rfl⟩ := move_inv hf
    split_ifs at h with h2
    cases h
    refine ⟨by simp [h1], by simp, fun _ _ => ⟨hT, fun h3 => ?_, fun h3 => ?_⟩⟩
    · have : m < ⌈backTime c dT b (j - i) / dT⌉.toNat := by
        have : (m : ℤ) < ⌈backTime c dT b (j - i) / dT⌉ := by
          rw [Int.lt_ceil, lt_div_iff₀ hd]; exact_mod_cast h3
        omega
      rw [List.getElem?_append_left (by simpa using this), getElem?_samples _ _ _ _ this]
    · have : ⌈backTime c dT b (j - i) / dT⌉.toNat ≤ m := ceil_le_of hd h3
      rw [List.getElem?_append_right (by simpa using this), length_samples, List.getElem?_replicate]
      rw [if_pos (by omega)]

theorem localBody_exists {c : ZmpTimes K} {stance switch : Vec2 K} {dT : K} (hd : 0 < dT) (he : 0 < c.endSwitch)
    (hn : 0 ≤ c.nominalSwitch) (k : Nat) (b : Bool) (p : Phase) (i j : Nat) (s : Unit) (hij : i < j) :
    ∃ r, localBody c stance switch dT k b p i j s = .ok r := by
  have hn' : (0 : K) < ((j - i : Nat) : K) := by exact_mod_cast (by omega : 0 < j - i)
  have hL := mul_pos hn' hd
  cases p <;> simp only [localBody]
  case swing => exact ⟨_, rfl⟩
  case switchIn => exact ⟨_, rfl⟩
  case stance => rw [move_ok _ _ hL]; exact ⟨_, rfl⟩
  case switchOut =>
    by_cases h1 : k = 1
    · rw [if_pos h1]; exact ⟨_, rfl⟩
    rw [if_neg h1]
    have hT : 0 < backTime c dT b (j - i) := by
      unfold backTime; split_ifs <;> linarith
    have hle := ceil_le_of hd (backTime_le (c := c) (last := b) (n := j - i) hd hn)
    rw [move_ok _ _ hT, Out.bind_ok, if_neg (by omega)]
    exact ⟨_, rfl⟩

/-! ## The steps used for the ZMP in the world -/

theorem backTo_ok {steps : List (Step K)} {good : Step K → Bool} {i : Nat} (hi : i < steps.length)
    (hex : ∃ (j : Nat) (s : Step K), j ≤ i ∧ steps[j]? = some s ∧ good s = true) :
    ∃ k s, backTo steps good i = .ok k ∧ k ≤ i ∧ steps[k]? = some s ∧ good s = true ∧
      ∀ (j : Nat) (s : Step K), k < j → j ≤ i → steps[j]? = some s → good s = false := by
  induction i with
  | zero =>
    obtain ⟨j, s, hj, hs, hg⟩ := hex
    have : j = 0 := by omega
    subst this
    refine ⟨0, s, ?_, le_refl _, hs, hg, fun j s h1 h2 => by omega⟩
    simp only [backTo, hs, if_pos hg]
  | succ i ih =>
    have e := List.getElem?_eq_getElem hi
    simp only [backTo, e]
    by_cases hg : good steps[i + 1] = true
    · rw [if_pos hg]
      exact ⟨i + 1, _, rfl, le_refl _, e, hg, fun j s h1 h2 => by omega⟩
    · rw [if_neg hg]
      obtain ⟨j, s, hj, hs, hg'⟩ := hex
      have hne : j ≠ i + 1 := by
        rintro rfl
        rw [e] at hs; cases hs; exact hg hg'
      obtain ⟨k, s, h1, h2, h3, h4, h5⟩ := ih (by omega) ⟨j, s, by omega, hs, hg'⟩
      refine ⟨k, s, h1, by omega, h3, h4, fun j s a b c => ?_⟩
      by_cases hji : j = i + 1
      · subst hji; rw [e] at c; cases c; simpa using hg
      · exact h5 j s a (by omega) c

/-- The step of the foot `name` that is used at a time. -/
def Current (steps : List (Step K)) (name : String) (time : K) (s : Step K) : Prop :=
  ∃ i, steps[i]? = some s ∧ s.footName = name ∧ s.impactTime ≤ time ∧
    ∀ (j : Nat) (s' : Step K), i < j → steps[j]? = some s' → s'.footName = name → time < s'.impactTime

theorem stepsUsed_ok {steps : List (Step K)} {name : String} {time : Nat → K} (hmono : ∀ a b, a ≤ b → time a ≤ time b)
    (hex : ∃ s ∈ steps, s.footName = name ∧ s.impactTime ≤ time 0) (n i : Nat) (s : Step K) (hs : steps[i]? = some s)
    (hname : s.footName = name)
    (hlater : ∀ k, k + 1 = n → ∀ (j : Nat) (s' : Step K), i < j → steps[j]? = some s' → s'.footName = name → time k < s'.impactTime) :
    ∃ l, stepsUsed steps name time n i = .ok l ∧ l.length = n ∧ ∀ k, k < n → ∃ s, l[k]? = some s ∧ Current steps name (time k) s := by
  induction n generalizing i s with
  | zero => exact ⟨[], rfl, rfl, fun k hk => by omega⟩
  | succ n ih =>
    obtain ⟨s0, hm, hn0, ht0⟩ := hex
    obtain ⟨i0, hi0⟩ := List.getElem?_of_mem hm
    have ht0' : s0.impactTime ≤ time n := ht0.trans (hmono 0 n (Nat.zero_le _))
    have hle : i0 ≤ i := by
      by_contra hc
      have := hlater n rfl i0 s0 (by omega) hi0 hn0
      exact absurd this (not_lt.mpr ht0')
    simp only [stepsUsed, hs]
    have key : ∃ i' s', stepAt steps name (time n) i s = .ok i' ∧
        steps[i']? = some s' ∧ s'.footName = name ∧ s'.impactTime ≤ time n ∧
        ∀ (j : Nat) (s'' : Step K), i' < j → steps[j]? = some s'' → s''.footName = name → time n < s''.impactTime := by
      unfold stepAt
      by_cases hc : time n < s.impactTime
      · rw [if_pos hc]
        obtain ⟨k, s', h1, h2, h3, h4, h5⟩ := backTo_ok
          (good := fun s => decide (s.footName = name ∧ ¬ time n < s.impactTime))
          (List.getElem?_eq_some_iff.mp hs).1 ⟨i0, s0, hle, hi0, by simp [hn0, ht0']⟩
        simp only [decide_eq_true_eq, not_lt] at h4
        refine ⟨k, s', h1, h3, h4.1, h4.2, fun j s'' a b d => ?_⟩
        by_cases hji : j ≤ i
        · have := h5 j s'' a hji b
          simp only [decide_eq_false_iff_not, not_and, not_not] at this
          exact this d
        · exact hlater n rfl j s'' (by omega) b d
      · rw [if_neg hc]
        exact ⟨i, s, rfl, hs, hname, not_lt.mp hc, fun j s'' a b d => hlater n rfl j s'' a b d⟩
    obtain ⟨i', s', k1, k2, k3, k4, k5⟩ := key
    rw [k1, Out.bind_ok]
    simp only [k2]
    obtain ⟨l, l1, l2, l3⟩ := ih i' s' k2 k3 (fun k hk j s'' a b d => lt_of_le_of_lt (hmono k n (by omega)) (k5 j s'' a b d))
    rw [l1, Out.bind_ok]
    refine ⟨l ++ [s'], rfl, by simp [l2], fun k hk => ?_⟩
    by_cases hkn : k < n
    · obtain ⟨s2, a, b⟩ := l3 k hkn
      exact ⟨s2, by rw [List.getElem?_append_left (by omega)]; exact a, b⟩
    · have : k = n := by omega
      subst this
      exact ⟨s', by rw [List.getElem?_append_right (by omega), l2]; simp, i', k2, k3, k4, k5⟩

/-! ## The ZMP in the world -/

section
variable [Trig K]

theorem worldFrom_at {ol or : Step K} {dT : K} {first : Nat} (instant : Nat) (zl zr : List (Motion2 K)) (wl wr : List (Motion K))
    (sl sr : List (Step K)) {out : List (ZmpSample K)} (h : worldFrom ol or dT first instant zl zr wl wr sl sr = .ok out) :
    out.length = zl.length ∧ ∀ j, j < zl.length → ∃ a b c d e f, zl[j]? = some a ∧ zr[j]? = some b ∧ wl[j]? = some c ∧
      wr[j]? = some d ∧ sl[j]? = some e ∧ sr[j]? = some f ∧ out[j]? = some (if instant + j < first then
        worldFirst (hermite 1 0 0 0 ((first : K) * dT) (((instant + j : Nat) : K) * dT)) c d e f ol or a b
      else worldAfter c d e f a b) := by
  induction zl generalizing instant zr wl wr sl sr out with
  | nil => simp only [worldFrom] at h; cases h; simp
  | cons a zl ih =>
    cases zr <;> cases wl <;> cases wr <;> cases sl <;> cases sr <;> simp only [worldFrom] at h
    all_goals first
      | (exfalso; simp at h; done)
      | skip
    rename_i b zr c wl d wr e sl f sr
    rw [Out.bind_eq_ok] at h
    obtain ⟨l, hl, h⟩ := h
    cases h
    obtain ⟨h1, h2⟩ := ih (instant + 1) zr wl wr sl sr hl
    refine ⟨by simp [h1], fun j hj => ?_⟩
    cases j with
    | zero => exact ⟨a, b, c, d, e, f, rfl, rfl, rfl, rfl, rfl, rfl, rfl⟩
    | succ j =>
      obtain ⟨a', b', c', d', e', f', q1, q2, q3, q4, q5, q6, q7⟩ := h2 j (by simpa using hj)
      refine ⟨a', b', c', d', e', f', q1, q2, q3, q4, q5, q6, ?_⟩
      rw [List.getElem?_cons_succ, q7, show instant + (j + 1) = instant + 1 + j by omega]

theorem worldFrom_ok (ol or : Step K) (dT : K) (first instant : Nat) (zl zr : List (Motion2 K)) (wl wr : List (Motion K))
    (sl sr : List (Step K)) (h1 : zr.length = zl.length) (h2 : wl.length = zl.length) (h3 : wr.length = zl.length)
    (h4 : sl.length = zl.length) (h5 : sr.length = zl.length) :
    ∃ out, worldFrom ol or dT first instant zl zr wl wr sl sr = .ok out := by
  induction zl generalizing instant zr wl wr sl sr with
  | nil => exact ⟨[], by simp [worldFrom]⟩
  | cons a zl ih =>
    cases zr <;> cases wl <;> cases wr <;> cases sl <;> cases sr
    all_goals first
      | (exfalso; simp at h1 h2 h3 h4 h5; done)
      | skip
    rename_i b zr c wl d wr e sl f sr
    obtain ⟨out, ho⟩ := ih (instant + 1) zr wl wr sl sr (by simpa using h1) (by simpa using h2) (by simpa using h3)
      (by simpa using h4) (by simpa using h5)
    simp only [worldFrom, ho, Out.bind_ok]
    exact ⟨_, rfl⟩

end

end Zmp
end Uni
