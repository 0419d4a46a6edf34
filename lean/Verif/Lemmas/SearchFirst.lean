import Verif.Spec.Search
import Mathlib.Data.Real.Basic
import Mathlib.Tactic.Linarith
import Mathlib.Tactic.Ring
import Mathlib.Tactic.Push

/-! # The first sample of a search at which the step is not tiny -/

set_option autoImplicit false

namespace Uni.Spec.Search

/-- The samples of a search: a period after the other, the end of the horizon included. -/
structure Sampled (s : Search ℝ) : Prop where
  period : 0 < s.dT
  before : ∀ k, s.time k < s.endTime → s.time (k + 1) = min (s.time k + s.dT) s.endTime
  after : ∀ k, s.endTime ≤ s.time k → s.time (k + 1) = s.time k + s.dT

variable {s : Search ℝ}

theorem Sampled.lt (h : Sampled s) (k : Nat) : s.time k < s.time (k + 1) := by
  have := h.period
  rcases lt_or_ge (s.time k) s.endTime with hk | hk
  · rw [h.before k hk]; exact lt_min (by linarith) hk
  · rw [h.after k hk]; linarith

theorem Sampled.le_succ (h : Sampled s) (k : Nat) : s.time (k + 1) ≤ s.time k + s.dT := by
  rcases lt_or_ge (s.time k) s.endTime with hk | hk
  · rw [h.before k hk]; exact min_le_left _ _
  · rw [h.after k hk]

theorem Sampled.strict (h : Sampled s) : StrictMono s.time := strictMono_nat_of_lt_succ h.lt

theorem Gate.later (h : Sampled s) {j k : Nat} (hjk : j ≤ k) (hj : s.Gate j) : s.Gate k := by
  have := h.strict.monotone hjk
  exact ⟨by linarith [hj.1], by linarith [hj.2]⟩

/-- The first sample that is not too early. -/
theorem first_gate {K : Nat} (hK : s.Gate K) : ∃ G ≤ K, s.Gate G ∧ (∀ j < G, ¬ s.Gate j) ∧ s.pause G = s.pause0 := by
  have hex : ∃ k, s.Gate k := ⟨K, hK⟩
  refine ⟨Nat.find hex, Nat.find_min' hex hK, Nat.find_spec hex, fun j hj => Nat.find_min hex hj, ?_⟩
  have : ∀ n, n ≤ Nat.find hex → s.pause n = s.pause0 := by
    intro n
    induction n with
    | zero => intro _; rfl
    | succ n ih =>
      intro hn
      rw [pause, if_neg (Nat.find_min hex hn), ih (by omega)]
  exact this _ le_rfl

/-- While the step is tiny the pause grows. -/
theorem pause_tiny (hs : Sampled s) {G : Nat} (hG : s.Gate G) (hp : s.pause G = s.pause0) : ∀ n,
    (∀ j, G ≤ j → j < G + n → s.tiny j = true) →
    s.pause (G + n) = s.pause0 + n * s.dT ∧ s.time (G + n) ≤ s.time G + n * s.dT ∧
      (s.time (G + n) < s.endTime → s.time (G + n) = s.time G + n * s.dT)
  | 0, _ => by simp [hp]
  | n + 1, h => by
    obtain ⟨h1, h2, h3⟩ := pause_tiny hs hG hp n (fun j a b => h j a (by omega))
    have ht := h (G + n) (by omega) (by omega)
    have hg : s.Gate (G + n) := hG.later hs (by omega)
    refine ⟨?_, ?_, fun hlt => ?_⟩
    · show s.pause (G + n + 1) = _
      rw [pause, if_pos hg, if_pos ht, h1]
      push_cast; ring
    · have := hs.le_succ (G + n)
      show s.time (G + n + 1) ≤ _
      push_cast; linarith
    · have hlt' : s.time (G + n + 1) < s.endTime := hlt
      have hb : s.time (G + n) < s.endTime := (hs.lt _).trans hlt'
      have e := hs.before _ hb
      have e1 : s.time (G + n + 1) = s.time (G + n) + s.dT := by
        rw [e] at hlt' ⊢
        rcases min_choice (s.time (G + n) + s.dT) s.endTime with hm | hm
        · exact hm
        · rw [hm] at hlt'; exact absurd hlt' (lt_irrefl _)
      show s.time (G + n + 1) = _
      rw [e1, h3 hb]
      push_cast; ring

/-- The first sample at which a step is possible and not tiny. -/
structure First (s : Search ℝ) (K : Nat) : Prop where
  gate : s.Gate K
  large : s.tiny K = false
  first : ∀ j < K, s.Gate j → s.tiny j = true

theorem exists_first {k : Nat} (hg : s.Gate k) (ht : s.tiny k = false) : ∃ K ≤ k, First s K := by
  classical
  have hex : ∃ k, s.Gate k ∧ s.tiny k = false := ⟨k, hg, ht⟩
  refine ⟨Nat.find hex, Nat.find_min' hex ⟨hg, ht⟩, (Nat.find_spec hex).1, (Nat.find_spec hex).2, fun j hj hg' => ?_⟩
  by_contra hc
  exact Nat.find_min hex hj ⟨hg', by simpa using hc⟩

/-- What happens up to that sample: only the samples that are not too early count as pause. -/
theorem First.net (hs : Sampled s) {K : Nat} (h : First s K) :
    ∃ G ≤ K, s.Gate G ∧ (∀ j < G, ¬ s.Gate j) ∧ s.pause K = s.pause0 + ((K - G : Nat) : ℝ) * s.dT ∧
      (s.time K < s.endTime → s.net K = s.time G - s.prevTime - s.pause0) ∧
      (∀ j, G ≤ j → j < K → s.tiny j = true) ∧
      ∀ j, G ≤ j → j ≤ K → s.time j < s.endTime → s.time j = s.time G + ((j - G : Nat) : ℝ) * s.dT := by
  obtain ⟨G, g1, g2, g3, g4⟩ := first_gate h.gate
  have ht : ∀ j, G ≤ j → j < K → s.tiny j = true := fun j a b => h.first j b (g2.later hs a)
  obtain ⟨p1, -, p3⟩ := pause_tiny hs g2 g4 (K - G) (fun j a b => ht j a (by omega))
  rw [Nat.add_sub_cancel' g1] at p1 p3
  refine ⟨G, g1, g2, g3, p1, fun hlt => ?_, ht, fun j a b hlt => ?_⟩
  · rw [Search.net, p1, p3 hlt]; ring
  · obtain ⟨-, -, q3⟩ := pause_tiny hs g2 g4 (j - G) (fun i c e => ht i c (by omega))
    rw [Nat.add_sub_cancel' a] at q3
    exact q3 hlt

/-- If that sample is a possible landing, then the search ends with a landing chosen by the optimisation. -/
theorem First.settles (hs : Sampled s) {K : Nat} (h : First s K) (hc : s.Candidate K)
    (hkeep : ∀ j k, j ≤ k → s.time k ≤ s.endTime → s.Gate j → s.tiny j = false → s.tiny k = false) (hlt : s.time K < s.endTime) :
    (∀ n, ¬ s.Closes n) ∧ ¬ s.Exhausted ∧ ∀ n m, s.Optimal n m → K ≤ m ∧ s.time m ≤ s.prevTime + s.maxTime + s.pause K := by
  refine ⟨fun n hn => ?_, fun ⟨n, hn, he⟩ => ?_, fun n m hm => ?_⟩
  · obtain ⟨-, -, a3, a4, -⟩ := hn
    have hK : ¬ K < n := fun hk => a4 K hk hc
    rcases Nat.lt_or_ge n K with hk | hk
    · have := h.first n hk a3.1
      rw [a3.2.1] at this; cases this
    · obtain rfl : n = K := by omega
      exact hc.2.2.1 a3.2.2
  · classical
    have hex : ∃ k, s.endTime ≤ s.time k := ⟨n, he.le⟩
    have e1 := Nat.find_spec hex
    have e2 : Nat.find hex ≤ n := Nat.find_min' hex he.le
    have e3 : K < Nat.find hex := by
      by_contra hk
      have := hs.strict.monotone (Nat.not_lt.mp hk)
      linarith
    obtain ⟨e, he'⟩ : ∃ e, Nat.find hex = e + 1 := ⟨Nat.find hex - 1, by omega⟩
    have e4 : s.time e < s.endTime := not_le.mp (Nat.find_min hex (by omega))
    have e5 : s.time (e + 1) ≤ s.endTime := by rw [hs.before e e4]; exact min_le_right _ _
    rw [he'] at e1 e2 e3
    have e6 : s.time (e + 1) = s.endTime := le_antisymm e5 e1
    have e7 : e + 1 < n := by
      rcases Nat.lt_or_ge (e + 1) n with h1 | h1
      · exact h1
      · have : e + 1 = n := by omega
        rw [← this] at he; linarith
    exact ((hn (e + 1) e7).2 ⟨h.gate.later hs e3.le, hkeep K (e + 1) e3.le e5 h.gate h.large, .inr e6⟩).1 K e3 hc
  · obtain ⟨a1, -, -, a4, a5, -⟩ := hm
    have hKm : K ≤ m := by
      by_contra hk
      have := h.first m (by omega) a5.1
      rw [a5.2.1] at this; cases this
    refine ⟨hKm, ?_⟩
    have hp : ∀ k, K ≤ k → k ≤ m → s.pause k = s.pause K := by
      intro k hk
      induction k, hk using Nat.le_induction with
      | base => intro _; rfl
      | succ k hk ih =>
        intro hkm
        have hkn : k < n := by omega
        have hnd : ¬ s.Due k := by
          intro hd
          rcases Nat.lt_or_ge K k with h1 | h1
          · exact ((a1 k hkn).2 hd).1 K h1 hc
          · obtain rfl : k = K := by omega
            exact hc.2.2.1 hd.2.2
        have hg : s.Gate k := h.gate.later hs hk
        have ht : s.tiny k = false := hkeep K k hk (a1 k hkn).1 h.gate h.large
        have hne : ¬ (s.maxTime < s.time k - s.prevTime - s.pause k ∨ s.time k = s.endTime) := fun h2 => hnd ⟨hg, ht, h2⟩
        rw [pause, if_pos hg, if_neg (by rw [ht]; simp), if_neg hne, ih (by omega)]
    have := not_lt.mp fun h2 => a5.2.2.1 (.inl h2)
    rw [Search.net, hp m hKm le_rfl] at this
    linarith

/-- If there is no such sample before the end, then nothing is decided before the end. -/
theorem none_before (hno : ∀ k, s.Gate k → s.time k < s.endTime → s.tiny k = true) :
    (∀ n m, ¬ s.Optimal n m) ∧ ∀ n, s.Closes n → s.time n = s.endTime := by
  refine ⟨fun n m hm => ?_, fun n hn => ?_⟩
  · obtain ⟨a1, -, -, a4, a5, -⟩ := hm
    have hle := (a1 m a4).1
    have := hno m a5.1 (lt_of_le_of_ne hle fun h => a5.2.2.1 (.inr h))
    rw [a5.2.1] at this; cases this
  · obtain ⟨-, a2, a3, -, -⟩ := hn
    by_contra hc
    have := hno n a3.1 (lt_of_le_of_ne a2 hc)
    rw [a3.2.1] at this; cases this

end Uni.Spec.Search
