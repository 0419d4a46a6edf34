import Verif.Spec.Ties
import Verif.Lemmas.Timeline
import Verif.Model.Walker
import Verif.Spec.Walker
import Mathlib.Data.List.Sort
import Mathlib.Data.List.Permutation

/-! # Two results of the sort -/

set_option autoImplicit false
set_option linter.unusedSectionVars false

namespace Uni.Gen
open Uni Uni.Spec
variable {K : Type}

variable [Field K] [LinearOrder K]

/-- A sorted list in which the elements of a class come before the others. -/
theorem sorted_split {s : List (Ptr K)} (P : Ptr K → Bool) (hs : s.Pairwise fun a b => a.step.impactTime ≤ b.step.impactTime)
    (h : ∀ x ∈ s, ∀ y ∈ s, P x = true → P y = false → x.step.impactTime < y.step.impactTime) :
    s = s.filter P ++ s.filter fun q => !P q := by
  induction s with
  | nil => rfl
  | cons a l ih =>
    have ih := ih hs.of_cons fun x hx y hy => h x (List.mem_cons_of_mem _ hx) y (List.mem_cons_of_mem _ hy)
    cases ha : P a with
    | true =>
      simp only [List.filter_cons, ha, if_true, Bool.not_true, Bool.false_eq_true, if_false, List.cons_append]
      rw [← ih]
    | false =>
      have hn : l.filter P = [] := by
        refine List.filter_eq_nil_iff.mpr fun x hx hP => ?_
        have h1 := h x (List.mem_cons_of_mem _ hx) a (by simp) hP ha
        exact absurd ((List.pairwise_cons.mp hs).1 x hx) (not_le.mpr h1)
      rw [hn] at ih
      simp only [List.filter_cons, ha, hn, Bool.not_false, if_true, Bool.false_eq_true, if_false, List.nil_append]
      rw [List.nil_append] at ih
      rw [← ih]

theorem filter_ofFoot (b : Bool) (x : Step K) (l : List (Step K)) :
    (Ptr.ofFoot b (x :: l)).filter (fun q => decide (q.index = 0)) = [⟨b, 0, x⟩] := by
  unfold Ptr.ofFoot
  rw [List.zipIdx_cons, List.map_cons, List.filter_cons, if_pos (by simp)]
  congr 1
  refine List.filter_eq_nil_iff.mpr fun q hq => ?_
  obtain ⟨p, hp, rfl⟩ := List.mem_map.mp hq
  have := List.le_snd_of_mem_zipIdx hp
  simp only [decide_eq_true_eq]
  omega

/-- What the sort can return: the first contacts in one of the two orders, then the others. -/
theorem sorted_forms {left right : FootPrint K} {s : List (Ptr K)} {a b : Step K} {ls rs : List (Step K)}
    (hl : left.steps = a :: ls) (hr : right.steps = b :: rs) (hf : FirstContactsFirst left right) (hs : SortedPtrs left right s) :
    ∃ rest, (s = ⟨true, 0, a⟩ :: ⟨false, 0, b⟩ :: rest ∨ s = ⟨false, 0, b⟩ :: ⟨true, 0, a⟩ :: rest) ∧
      rest.Perm ((Ptr.ofFeet left right).filter fun q => !decide (q.index = 0)) ∧
      rest.Pairwise (fun a b => a.step.impactTime ≤ b.step.impactTime) ∧
      (∀ q ∈ rest, q.step ∈ ls ++ rs) := by
  have hmem : ∀ q ∈ s, (if q.left then left.steps else right.steps)[q.index]? = some q.step :=
    fun q hq => mem_ofFeet.mp (hs.1.mem_iff.mp hq)
  have htail : ∀ q ∈ s, q.index ≠ 0 → q.step ∈ ls ++ rs := by
    intro q hq h0
    have := hmem q hq
    obtain ⟨n, hn⟩ := Nat.exists_eq_succ_of_ne_zero h0
    rw [hn, hl, hr] at this
    cases hb : q.left <;> simp only [hb, Bool.false_eq_true, if_false, if_true, Nat.succ_eq_add_one, List.getElem?_cons_succ] at this
    · exact List.mem_append_right _ (List.mem_of_getElem? this)
    · exact List.mem_append_left _ (List.mem_of_getElem? this)
  have hsplit := sorted_split (fun q => decide (q.index = 0)) hs.2 (by
    intro x hx y hy h1 h2
    simp only [decide_eq_true_eq, decide_eq_false_iff_not] at h1 h2
    have h3 := hf a b (by rw [hl]; rfl) (by rw [hr]; rfl) y.step (by rw [hl, hr]; exact htail y hy h2)
    have h4 := hmem x hx
    rw [h1, hl, hr] at h4
    cases hb : x.left <;> simp [hb] at h4
    · rw [← h4]; exact h3.2
    · rw [← h4]; exact h3.1)
  have hperm : (s.filter fun q => decide (q.index = 0)).Perm [⟨true, 0, a⟩, ⟨false, 0, b⟩] := by
    refine (hs.1.filter _).trans (.of_eq ?_)
    unfold Ptr.ofFeet
    rw [List.filter_append, hl, hr, filter_ofFoot, filter_ofFoot]
    rfl
  refine ⟨s.filter fun q => !decide (q.index = 0), ?_, hs.1.filter _, hs.2.filter _, ?_⟩
  · rcases List.perm_pair.mp hperm with h | h
    · left; conv_lhs => rw [hsplit, h]
      rfl
    · right; conv_lhs => rw [hsplit, h]
      rfl
  · intro q hq
    obtain ⟨h1, h2⟩ := List.mem_filter.mp hq
    exact htail q h1 (by simpa using h2)

theorem rest_unique {l m : List (Ptr K)} (hp : l.Perm m) (hl : l.Pairwise fun a b => a.step.impactTime ≤ b.step.impactTime)
    (hm : m.Pairwise fun a b => a.step.impactTime ≤ b.step.impactTime) (hd : adjacentDup l = false) : l = m := by
  have h1 := adjacentDup_false hd hl
  have h2 : m.Pairwise fun a b => a.step.impactTime ≠ b.step.impactTime :=
    (hp.pairwise_iff (fun h => Ne.symm h)).mp (h1.imp fun h => ne_of_lt h)
  have h3 : m.Pairwise fun a b => a.step.impactTime < b.step.impactTime :=
    (hm.and h2).imp fun h => lt_of_le_of_ne h.1 h.2
  exact hp.eq_of_pairwise (fun a b _ _ h h' => absurd h' (lt_asymm h)) h1 h3

/-- Two results of the sort lead to the same order, except that two simultaneous contacts can be exchanged if there are no others. -/
theorem orderSteps_ties {left right : FootPrint K} {s s' : List (Ptr K)} {a b : Step K} {ls rs : List (Step K)}
    (hl : left.steps = a :: ls) (hr : right.steps = b :: rs) (hf : FirstContactsFirst left right) (hn : left.footName ≠ right.footName)
    (nl : Named left) (nr : Named right) (hs : SortedPtrs left right s) (hs' : SortedPtrs left right s') :
    orderSteps s = orderSteps s' ∨
      ∃ x y, (x = (⟨true, 0, a⟩ : Ptr K) ∧ y = ⟨false, 0, b⟩ ∨ x = (⟨false, 0, b⟩ : Ptr K) ∧ y = ⟨true, 0, a⟩) ∧
        orderSteps s = .ok [x, y] ∧ orderSteps s' = .ok [y, x] := by
  obtain ⟨rest, f1, p1, q1, m1⟩ := sorted_forms hl hr hf hs
  obtain ⟨rest', f2, p2, q2, -⟩ := sorted_forms hl hr hf hs'
  have hp := p1.trans p2.symm
  have na : a.footName = left.footName := nl a (by rw [hl]; simp)
  have nb : b.footName = right.footName := nr b (by rw [hr]; simp)
  have hname : ∀ q ∈ rest, q.step.footName = left.footName ∨ q.step.footName = right.footName := by
    intro q hq
    rcases List.mem_append.mp (m1 q hq) with h | h
    · exact .inl (nl _ (by rw [hl]; exact List.mem_cons_of_mem _ h))
    · exact .inr (nr _ (by rw [hr]; exact List.mem_cons_of_mem _ h))
  cases hd : adjacentDup rest with
  | true =>
    have hd' : adjacentDup rest' = true := by
      by_contra hc
      rw [Bool.not_eq_true] at hc
      rw [rest_unique hp.symm q2 q1 hc, hd] at hc
      cases hc
    left
    rcases f1 with rfl | rfl <;> rcases f2 with rfl | rfl <;> simp only [orderSteps, hd, hd', if_true]
  | false =>
    have hrest := rest_unique hp q1 q2 hd
    subst hrest
    have same : s = s' ∨ a.impactTime = b.impactTime := by
      rcases f1 with rfl | rfl <;> rcases f2 with rfl | rfl
      · exact .inl rfl
      · right
        exact le_antisymm ((List.pairwise_cons.mp hs.2).1 _ List.mem_cons_self) ((List.pairwise_cons.mp hs'.2).1 _ List.mem_cons_self)
      · right
        exact le_antisymm ((List.pairwise_cons.mp hs'.2).1 _ List.mem_cons_self) ((List.pairwise_cons.mp hs.2).1 _ List.mem_cons_self)
      · exact .inl rfl
    rcases same with rfl | heq
    · exact .inl rfl
    · cases rest with
      | nil =>
        rcases f1 with rfl | rfl <;> rcases f2 with rfl | rfl
        · exact .inl rfl
        · exact .inr ⟨_, _, .inl ⟨rfl, rfl⟩, by simp [orderSteps, adjacentDup], by simp [orderSteps, adjacentDup]⟩
        · exact .inr ⟨_, _, .inr ⟨rfl, rfl⟩, by simp [orderSteps, adjacentDup], by simp [orderSteps, adjacentDup]⟩
        · exact .inl rfl
      | cons c rest =>
        left
        have hc := hname c (by simp)
        rcases f1 with rfl | rfl <;> rcases f2 with rfl | rfl
        · rfl
        · rcases hc with hc | hc <;> simp [orderSteps, hd, heq, na, nb, hc, hn, hn.symm]
        · rcases hc with hc | hc <;> simp [orderSteps, hd, heq, na, nb, hc, hn, hn.symm]
        · rfl

/-! ## The timings -/

variable [FloorRing K]

theorem timeline_congr {cfg : GenSettings K} {left right : FootPrint K} {t dT : K} {s s' : List (Ptr K)} (h : orderSteps s = orderSteps s') :
    timeline cfg left right t dT s = timeline cfg left right t dT s' := by
  unfold timeline
  rw [h]

theorem outputsAfter_congr {cfg : GenSettings K} {left right : FootPrint K} {t dT : K} {s s' : List (Ptr K)} {o : GenOutputs}
    (h : orderSteps s = orderSteps s') : outputsAfter cfg left right t dT s o = outputsAfter cfg left right t dT s' o := by
  unfold outputsAfter
  rw [timeline_congr h, h]

theorem timings_swap {cfg : GenSettings K} {t dT : K} {left right : List (Step K)} (x y : Ptr K) :
    createPhasesTimings cfg t dT left right [x, y] = createPhasesTimings cfg t dT left right [y, x] := by
  unfold createPhasesTimings
  cases left <;> cases right <;> simp

end Uni.Gen

namespace Uni
open Uni.Gen Uni.Spec
variable {K : Type} [Field K] [LinearOrder K] [IsStrictOrderedRing K] [FloorRing K] [Trig K]

/-! ## The ZMP -/

namespace Zmp

theorem stepsUsed_last {steps : List (Step K)} {name : String} {time : Nat → K} {i : Nat} {s : Step K} (hi : steps[i]? = some s)
    (h : ∀ k, ¬ time k < s.impactTime) (n : Nat) : stepsUsed steps name time n i = .ok (List.replicate n s) := by
  induction n with
  | zero => rfl
  | succ n ih =>
    unfold stepsUsed
    simp only [hi]
    have : stepAt steps name (time n) i s = .ok i := by
      unfold stepAt
      rw [if_neg (h n)]
    simp only [this, Out.bind_ok, hi, ih]
    rw [← List.replicate_succ']

/-- The world ZMP of a robot that stands does not depend on the order of its two contacts. -/
theorem world_swap {x y ol or : Step K} {t dT : K} {shifts : List Nat} {ln rn : String} {zl zr : List (Motion2 K)} {wl wr : List (Motion K)}
    (hd : 0 < dT) (hx : x.impactTime ≤ t) (hy : y.impactTime ≤ t) (hn : ln ≠ rn)
    (hxy : x.footName = ln ∧ y.footName = rn ∨ x.footName = rn ∧ y.footName = ln) :
    world ol or t dT shifts [x, y] ln rn zl zr wl wr = world ol or t dT shifts [y, x] ln rn zl zr wl wr := by
  have ht : ∀ s : Step K, s.impactTime ≤ t → ∀ k : Nat, ¬ (k : K) * dT + t < s.impactTime := by
    intro s hs k
    have : (0 : K) ≤ (k : K) * dT := mul_nonneg (Nat.cast_nonneg _) hd.le
    exact not_lt.mpr (by linarith)
  have b0 : ∀ (p q : Step K) (name : String), p.footName = name → q.footName ≠ name →
      backTo [p, q] (fun s => decide (s.footName = name)) 1 = .ok 0 := by
    intro p q name h1 h2
    simp [backTo, h1, h2]
  have b1 : ∀ (p q : Step K) (name : String), q.footName = name → backTo [p, q] (fun s => decide (s.footName = name)) 1 = .ok 1 := by
    intro p q name h1
    simp [backTo, h1]
  have u0 : ∀ (p q : Step K) (name : String), p.impactTime ≤ t →
      stepsUsed [p, q] name (fun instant => (instant : K) * dT + t) zl.length 0 = .ok (List.replicate zl.length p) :=
    fun p q name h => stepsUsed_last (by rfl) (ht p h) _
  have u1 : ∀ (p q : Step K) (name : String), q.impactTime ≤ t →
      stepsUsed [p, q] name (fun instant => (instant : K) * dT + t) zl.length 1 = .ok (List.replicate zl.length q) :=
    fun p q name h => stepsUsed_last (by rfl) (ht q h) _
  unfold world
  cases shifts[1]? with
  | none => rfl
  | some first =>
    simp only [List.cons_ne_nil, if_false, List.length_cons, List.length_nil, Nat.zero_add, Nat.add_one_sub_one]
    rcases hxy with ⟨h1, h2⟩ | ⟨h1, h2⟩
    · rw [b0 x y ln h1 (by rw [h2]; exact hn.symm), b1 x y rn h2, b1 y x ln h1, b0 y x rn h2 (by rw [h1]; exact hn)]
      simp only [Out.bind_ok, u0 _ _ _ hx, u1 _ _ _ hy, u0 _ _ _ hy, u1 _ _ _ hx]
    · rw [b1 x y ln h2, b0 x y rn h1 (by rw [h2]; exact hn), b0 y x ln h2 (by rw [h1]; exact hn.symm), b1 y x rn h1]
      simp only [Out.bind_ok, u0 _ _ _ hx, u1 _ _ _ hy, u0 _ _ _ hy, u1 _ _ _ hx]

theorem trajectories_swap (z : Zmp K) {cfg : GenSettings K} {x y : Step K} {t dT : K} {merges shifts : List Nat} {left right : FootPrint K}
    {lp rp : List Phase} (hd : 0 < dT) (hx : x.impactTime ≤ t) (hy : y.impactTime ≤ t) (hn : left.footName ≠ right.footName)
    (hxy : x.footName = left.footName ∧ y.footName = right.footName ∨ x.footName = right.footName ∧ y.footName = left.footName) :
    z.computeNewTrajectories cfg t dT merges left right [x, y] lp rp shifts =
      z.computeNewTrajectories cfg t dT merges left right [y, x] lp rp shifts := by
  unfold computeNewTrajectories
  simp only [world_swap hd hx hy hn hxy]

end Zmp

/-! ## The DCM -/

namespace Dcm

theorem middle_comm (a b : Vec2 K) : middle a b = middle b a := by
  unfold middle
  have : a + b = b + a := by ext <;> simp [add_comm]
  rw [this]

theorem stand_swap (d : Dcm K) (front back : Nat) (a b : Step K) (init : Vec2 K × Vec2 K) :
    d.standPieces front back a b init = d.standPieces front back b a init := by
  unfold standPieces
  have h : ∀ s, (∃ z, d.zmpOf s = .ok z) ∨ d.zmpOf s = .fail := by
    intro s
    unfold zmpOf
    split_ifs
    · exact .inl ⟨_, rfl⟩
    · exact .inl ⟨_, rfl⟩
    · exact .inr rfl
  rcases h a with ⟨z, hz⟩ | hz <;> rcases h b with ⟨z', hz'⟩ | hz' <;> rw [hz, hz']
  · simp only [Out.bind_ok, middle_comm]
  all_goals rfl

theorem trajectories_swap (d : Dcm K) {cfg : GenSettings K} {x y : Step K} {t dT : K} {shifts : List Nat} {left right : FootPrint K}
    {lp : List Phase} : d.computeNewTrajectories cfg t dT [x, y] shifts lp left right =
      d.computeNewTrajectories cfg t dT [y, x] shifts lp left right := by
  have h : ∀ (d : Dcm K) (init : Vec2 K × Vec2 K), d.generate [x, y] lp left.steps right.steps init shifts =
      d.generate [y, x] lp left.steps right.steps init shifts := by
    intro d init
    unfold generate pieces
    cases shifts.head? <;> cases shifts.getLast? <;> simp only [stand_swap d _ _ x y]
  unfold computeNewTrajectories
  simp only [h]

end Dcm

/-! ## The whole generation -/

namespace Walker
variable {w : Walker K}

/-- The order in which the sort leaves simultaneous contacts has no influence. -/
theorem ties {left right : FootPrint K} {t dT : K} {s s' : List (Ptr K)} (hf : FirstContactsFirst left right)
    (nl : Named left) (nr : Named right) (hs : SortedPtrs left right s) (hs' : SortedPtrs left right s') :
    w.generateFromFootPrints left right t dT s = w.generateFromFootPrints left right t dT s' := by
  have hcongr : orderSteps s = orderSteps s' → w.generateFromFootPrints left right t dT s = w.generateFromFootPrints left right t dT s' := by
    intro h
    unfold generateFromFootPrints
    rw [outputsAfter_congr h]
    simp only [timeline_congr h]
  cases hl : left.steps with
  | nil => unfold generateFromFootPrints outputsAfter timeline; simp only [hl]
  | cons a ls =>
    cases hr : right.steps with
    | nil => unfold generateFromFootPrints outputsAfter timeline; simp only [hl, hr]
    | cons b rs =>
      by_cases hn : left.footName = right.footName
      · unfold generateFromFootPrints outputsAfter timeline; simp only [hl, hr, if_pos hn]
      by_cases hd : dT ≤ 0
      · unfold generateFromFootPrints outputsAfter timeline; simp only [hl, hr, if_neg hn, if_pos hd]
      by_cases hm : t < max a.impactTime b.impactTime
      · unfold generateFromFootPrints outputsAfter timeline; simp only [hl, hr, if_neg hn, if_neg hd, if_pos hm]
      rcases orderSteps_ties hl hr hf hn nl nr hs hs' with h | ⟨x, y, hxy, e, e'⟩
      · exact hcongr h
      · have hle : a.impactTime ≤ t ∧ b.impactTime ≤ t := max_le_iff.mp (not_lt.mp hm)
        have na : a.footName = left.footName := nl a (by rw [hl]; simp)
        have nb : b.footName = right.footName := nr b (by rw [hr]; simp)
        have hx : x.step.impactTime ≤ t := by rcases hxy with ⟨rfl, rfl⟩ | ⟨rfl, rfl⟩; exacts [hle.1, hle.2]
        have hy : y.step.impactTime ≤ t := by rcases hxy with ⟨rfl, rfl⟩ | ⟨rfl, rfl⟩; exacts [hle.2, hle.1]
        have hnames : x.step.footName = left.footName ∧ y.step.footName = right.footName ∨
            x.step.footName = right.footName ∧ y.step.footName = left.footName := by
          rcases hxy with ⟨rfl, rfl⟩ | ⟨rfl, rfl⟩
          · exact .inl ⟨na, nb⟩
          · exact .inr ⟨nb, na⟩
        have htraj : ∀ (w : Walker K) (T : Timing K), w.left = left → w.right = right →
            w.trajectories t dT [x, y] T = w.trajectories t dT [y, x] T := by
          intro w T h1 h2
          have hz : ∀ cfg, runZmp cfg t dT left right [x, y] T = runZmp cfg t dT left right [y, x] T := by
            intro cfg
            funext z
            unfold runZmp
            simp only [List.map_cons, List.map_nil]
            rw [Zmp.trajectories_swap z (not_le.mp hd) hx hy hn hnames]
          have hdcm : ∀ cfg, runDcm cfg t dT left right [x, y] T = runDcm cfg t dT left right [y, x] T := by
            intro cfg
            funext d
            unfold runDcm
            simp only [List.map_cons, List.map_nil]
            rw [Dcm.trajectories_swap d]
          unfold trajectories
          simp only [h1, h2, hz, hdcm]
        have ht : timeline w.cfg left right t dT s = (do
            let T ← createPhasesTimings (effective w.cfg) t dT left.steps right.steps [x, y]
            .ok ([x, y], T)) := by
          unfold timeline
          simp only [hl, hr, if_neg hn, if_neg hd, if_neg hm, e, Out.bind_ok]
          rfl
        have ht' : timeline w.cfg left right t dT s' = (do
            let T ← createPhasesTimings (effective w.cfg) t dT left.steps right.steps [x, y]
            .ok ([y, x], T)) := by
          unfold timeline
          simp only [hl, hr, if_neg hn, if_neg hd, if_neg hm, e', Out.bind_ok]
          rw [timings_swap x y]
          rfl
        have hout : outputsAfter w.cfg left right t dT s w.outputs = outputsAfter w.cfg left right t dT s' w.outputs := by
          unfold outputsAfter
          rw [ht, ht', e, e']
          cases createPhasesTimings (effective w.cfg) t dT left.steps right.steps [x, y] <;> simp
        unfold generateFromFootPrints
        rw [hout]
        simp only [ht, ht']
        cases createPhasesTimings (effective w.cfg) t dT left.steps right.steps [x, y] with
        | ok T => simp only [Out.bind_ok]; exact htraj _ T rfl rfl
        | fail => rfl
        | ub => rfl

end Walker
end Uni
