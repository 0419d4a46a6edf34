import Verif.Spec.Again
import Verif.Props.Walker
import Verif.Lemmas.Merge

/-! # C90: a new walk on top of the old one; C80 for a robot that is walking -/

set_option autoImplicit false
set_option linter.unusedSectionVars false

namespace Uni.Spec
open Uni Uni.Gen Uni.Walker

variable {K : Type} [Field K] [LinearOrder K] [IsStrictOrderedRing K] [FloorRing K] [Trig K]
variable {w w' : Walker K} {integ : Integrator K} {sort : Sorter K} {fuel : Nat}

/-! ## The contacts before the beginning of a walk -/

private theorem filter_le_of_drop {P : Ptr K → Bool} {l : List (Ptr K)} {n : Nat} (h : ∀ q ∈ l.drop n, P q = false) :
    (l.filter P).length ≤ n := by
  have : l.filter P = (l.take n).filter P := by
    conv_lhs => rw [← List.take_append_drop n l]
    have hn : (l.drop n).filter P = [] := List.filter_eq_nil_iff.mpr fun q hq => by simp [h q hq]
    rw [List.filter_append, hn, List.append_nil]
  rw [this]
  exact (List.length_filter_le _ _).trans (List.length_take_le _ _)

private theorem count_ordered {left right : FootPrint K} {sorted ordered : List (Ptr K)}
    (hs : SortedPtrs left right sorted) (h : orderSteps sorted = .ok ordered) (P : Step K → Bool) :
    ((left.steps ++ right.steps).filter P).length = (ordered.filter fun q => P q.step).length := by
  have e : (Ptr.ofFeet left right).map Ptr.step = left.steps ++ right.steps := by
    simp [Ptr.ofFeet, Ptr.ofFoot, Function.comp_def, List.zipIdx_map_fst]
  have hp := ((orderSteps_ok h hs.2).1.trans hs.1).filter (fun q => P q.step)
  rw [hp.length_eq, ← e, List.filter_map, List.length_map]
  rfl

private theorem count_ptrs {cfg : GenSettings K} {left right : FootPrint K} {t dT : K} {sorted ordered : List (Ptr K)} {T : Timing K}
    (hs : SortedPtrs left right sorted) (h : timeline cfg left right t dT sorted = .ok (ordered, T)) (P : Step K → Bool) :
    ((left.steps ++ right.steps).filter P).length = (ordered.filter fun q => P q.step).length := by
  obtain ⟨l, r, tt, hr⟩ := timeline_ok h
  exact count_ordered hs hr.order P

private theorem third {cfg : GenSettings K} {left right : FootPrint K} {t dT : K} {sorted ordered : List (Ptr K)} {T : Timing K}
    (hs : SortedPtrs left right sorted) (h : timeline cfg left right t dT sorted = .ok (ordered, T)) :
    (∀ q ∈ ordered.drop 2, t ≤ q.step.impactTime) ∧ ∀ q ∈ ordered.drop 3, t < q.step.impactTime := by
  obtain ⟨l, r, tt, hr⟩ := timeline_ok h
  obtain ⟨-, -, hp⟩ := orderSteps_ok hr.order hs.2
  rcases hr.built.cases with ⟨h2, -⟩ | ⟨-, ms, hsl, -⟩
  · constructor <;> intro q hq
    · rw [List.drop_eq_nil_of_le h2.le] at hq; cases hq
    · rw [List.drop_eq_nil_of_le (by omega)] at hq; cases hq
  · have e3 : ordered.drop 3 = (ordered.drop 2).drop 1 := by rw [List.drop_drop]
    rw [e3]
    generalize ordered.drop 2 = l at *
    generalize tt.slots = slots at hsl
    cases l with
    | nil => simp
    | cons q l =>
      have h0 : t ≤ q.step.impactTime := by
        cases hsl with
        | cons _ _ _ _ s ss ms mss h1 =>
          have := h1.nonneg
          simp only [Nat.cast_zero, zero_mul, add_zero] at this
          linarith
      rw [List.pairwise_cons] at hp
      refine ⟨fun x hx => ?_, fun x hx => ?_⟩
      · rcases List.mem_cons.mp hx with rfl | hx
        · exact h0
        · exact h0.trans (hp.1 x hx).le
      · exact lt_of_le_of_lt h0 (hp.1 x hx)

/-- C90: when a walk is generated at most two of its contacts are before the initial time (the robot stands on them), at most
one more at the initial time itself. -/
theorem C90_contacts_before (hsort : ∀ l r, SortedPtrs l r (sort l r)) {c : Call K}
    (h : w.call integ fuel sort c = .done true w') :
    ((contactsOf w').filter fun s => decide (s.impactTime < (timesOf c).1)).length ≤ 2 ∧
      ((contactsOf w').filter fun s => decide (s.impactTime ≤ (timesOf c).1)).length ≤ 3 := by
  obtain ⟨w1, o, t, hm⟩ := call_made_by h
  have ht := hm.made
  obtain ⟨h2, h3⟩ := third (hsort _ _) ht
  constructor
  · unfold contactsOf
    rw [count_ptrs (hsort _ _) ht]
    exact filter_le_of_drop fun q hq => by simpa using h2 q hq
  · unfold contactsOf
    rw [count_ptrs (hsort _ _) ht]
    exact filter_le_of_drop fun q hq => by simpa using h3 q hq

/-! ## C90: the old walk is still there -/

private theorem plan_of {t e : K} {b : Bool} (h : w.plan integ fuel t e = .done b w') : ∃ p l r,
    w.planner.computeNewSteps integ fuel w.left w.right t e = .done b p l r ∧ w' = { w with planner := p, left := l, right := r } := by
  unfold Walker.plan at h
  split at h
  · rename_i b p l r e
    cases h
    exact ⟨p, l, r, e, rfl⟩
  · cases h
  · cases h

private theorem retimed {fp fp' : FootPrint K} {t : K} (h : Retimed fp t fp') : fp'.steps.length = fp.steps.length ∧
    ∀ e, t ≤ e → (∀ s ∈ fp.steps, s.impactTime ≤ e) → ∀ s ∈ fp'.steps, s.impactTime ≤ e := by
  obtain ⟨older, s, h1, rfl⟩ := h
  refine ⟨by simp [h1], fun e he hall x hx => ?_⟩
  rw [h1] at hall
  rcases List.mem_append.mp hx with hx | hx
  · exact hall x (List.mem_append_left _ hx)
  · simp only [List.mem_singleton] at hx
    rw [hx]
    exact he

private theorem filter_all {P : Step K → Bool} {l : List (Step K)} (h : ∀ s ∈ l, P s = true) : (l.filter P).length = l.length := by
  rw [List.filter_eq_self.mpr h]

/-- The old contacts are still in the footprints after planning, not after the initial time. -/
private theorem old_contacts (hp : Timed w.planner) (hw : HoldsWalk w) {t e : K} {p : Planner K} {l r : FootPrint K}
    (h : w.planner.computeNewSteps integ fuel w.left w.right t e = .done true p l r) :
    4 ≤ ((l.steps ++ r.steps).filter fun s => decide (s.impactTime ≤ t)).length ∧ 4 ≤ (l.steps ++ r.steps).length ∧
      Chronological l ∧ Chronological r ∧ NonNeg l ∧ NonNeg r := by
  obtain ⟨d, hd⟩ := Planner.exists_plan hp hw.leftTimes hw.rightTimes h
  have hs : d.l0 = w.left ∧ d.r0 = w.right := by
    rcases hd.begins.steps with ⟨-, e1, e2⟩ | ⟨e1, e2, -⟩
    · exact ⟨e1, e2⟩
    · have := hw.many
      simp [contactsOf, e1, e2] at this
  have hlast : (∀ s, w.left.steps.getLast? = some s → s.impactTime ≤ t) ∧ ∀ s, w.right.steps.getLast? = some s → s.impactTime ≤ t := by
    have h1 := hd.begins.last
    have h2 := hd.begins.swing
    have h3 := hd.begins.prevTime
    rw [hs.1, hs.2] at h1 h2
    cases hb : d.q.swingLeft <;> rw [hb] at h1 h2
    · exact ⟨fun s hs => by rw [if_neg (by simp)] at h1; rw [h1] at hs; cases hs; exact h3, fun s hs => (h2 s hs).trans h3⟩
    · exact ⟨fun s hs => (h2 s hs).trans h3, fun s hs => by rw [if_pos rfl] at h1; rw [h1] at hs; cases hs; exact h3⟩
  have hall : ∀ fp : FootPrint K, Chronological fp → (∀ s, fp.steps.getLast? = some s → s.impactTime ≤ t) →
      ∀ s ∈ fp.steps, s.impactTime ≤ t := by
    intro fp hc hl s hs
    obtain ⟨x, hx⟩ : ∃ x, fp.steps.getLast? = some x := by
      cases hg : fp.steps.getLast? with
      | none => rw [List.getLast?_eq_none_iff.mp hg] at hs; cases hs
      | some x => exact ⟨x, rfl⟩
    exact (InOrder.le_last hc hx s hs).trans (hl x hx)
  have hl := hall w.left hw.left hlast.1
  have hr := hall w.right hw.right hlast.2
  obtain ⟨o1, o2⟩ := hd.inOrder hp hw.left hw.right
  have key : ∀ fp fp' : FootPrint K, (∀ s ∈ fp.steps, s.impactTime ≤ t) →
      (fp.steps <+: fp'.steps ∨ fp' = fp ∨ ∃ x, x ≤ t ∧ Retimed fp x fp') →
      fp.steps.length ≤ (fp'.steps.filter fun s => decide (s.impactTime ≤ t)).length := by
    intro fp fp' ha hc
    rcases hc with ⟨m, hm⟩ | rfl | ⟨x, hx, hret⟩
    · rw [← hm, List.filter_append, List.length_append, filter_all (fun s hs => by simpa using ha s hs)]
      exact Nat.le_add_right _ _
    · rw [filter_all (fun s hs => by simpa using ha s hs)]
    · obtain ⟨e1, e2⟩ := retimed hret
      rw [filter_all (fun s hs => by simpa using e2 t hx ha s hs), e1]
  have hcases : (w.left.steps <+: l.steps ∨ l = w.left ∨ ∃ x, x ≤ t ∧ Retimed w.left x l) ∧
      (w.right.steps <+: r.steps ∨ r = w.right ∨ ∃ x, x ≤ t ∧ Retimed w.right x r) := by
    rcases hd.grows with ⟨g1, g2, -⟩ | ⟨a, b, h1, h2, ⟨-, rfl, rfl⟩ | ⟨-, rfl, h4⟩ | ⟨-, h4, rfl⟩⟩
    · exact ⟨.inl g1, .inl g2⟩
    · exact ⟨.inr (.inl rfl), .inr (.inl rfl)⟩
    · exact ⟨.inr (.inl rfl), .inr (.inr ⟨_, hlast.1 a h1, h4⟩)⟩
    · exact ⟨.inr (.inr ⟨_, hlast.2 b h2, h4⟩), .inr (.inl rfl)⟩
  have c1 := key _ _ hl hcases.1
  have c2 := key _ _ hr hcases.2
  have hmany := hw.many
  simp only [contactsOf, List.length_append] at hmany
  refine ⟨by rw [List.filter_append, List.length_append]; omega, ?_, o1, o2, ?_, ?_⟩
  · have f1 := List.length_filter_le (fun s : Step K => decide (s.impactTime ≤ t)) l.steps
    have f2 := List.length_filter_le (fun s : Step K => decide (s.impactTime ≤ t)) r.steps
    rw [List.length_append]; omega
  · exact (Planner.C28_nonneg hp hw.leftTimes hw.rightTimes h).1
  · exact (Planner.C28_nonneg hp hw.leftTimes hw.rightTimes h).2

private theorem fromMembers_steps {t dT : K} {b : Bool} (h : w.fromMembers t dT sort = .done b w') :
    w'.left = w.left ∧ w'.right = w.right := by
  unfold fromMembers at h
  split at h
  · rename_i e
    cases h
    unfold generateFromFootPrints at e
    simp only at e
    split at e
    · obtain ⟨c, m, z, d, g, rfl, -⟩ := trajectories_ok e
      exact ⟨rfl, rfl⟩
    · cases e; exact ⟨rfl, rfl⟩
    · cases e
  · cases h; exact ⟨rfl, rfl⟩
  · cases h

/-- C90: when the footprints hold a walk, no request for a new walk succeeds. -/
theorem C90_again (hpi : (0 : K) ≤ Trig.pi) (hsort : ∀ l r, SortedPtrs l r (sort l r)) (hw : Reached integ sort w) (hold : HoldsWalk w)
    {t dT e : K} : w.generate integ fuel sort t dT e ≠ .done true w' := by
  intro h
  obtain ⟨-, c⟩ := C90_contacts_before (c := .generate t dT e) hsort h
  rcases next_done h with ⟨w1, e1, e2⟩ | ⟨h, -⟩
  · obtain ⟨p, l, r, ep, rfl⟩ := plan_of e1
    obtain ⟨c', -⟩ := old_contacts (hw.timed hpi) hold ep
    obtain ⟨f1, f2⟩ := fromMembers_steps e2
    unfold contactsOf at c
    rw [f1, f2] at c
    exact absurd (c'.trans c) (by decide)
  · cases h

private theorem holds_generate (hpi : (0 : K) ≤ Trig.pi) (hw : Reached integ sort w) (hold : HoldsWalk w) {t dT e : K} {b : Bool}
    (h : w.generate integ fuel sort t dT e = .done b w') : HoldsWalk w' := by
  rcases next_done h with ⟨w1, e1, e2⟩ | ⟨-, e1⟩
  · obtain ⟨p, l, r, ep, rfl⟩ := plan_of e1
    obtain ⟨-, c1, c2, c3, c4, c5⟩ := old_contacts (hw.timed hpi) hold ep
    obtain ⟨f1, f2⟩ := fromMembers_steps e2
    refine ⟨?_, ?_, ?_, ?_, ?_⟩ <;> (try unfold contactsOf) <;> simp only [f1, f2] <;> assumption
  · obtain ⟨p, l, r, ep, rfl⟩ := plan_of e1
    rcases (Planner.C31_reasons (hw.timed hpi) ep).2 with ⟨rfl, rfl⟩ | ⟨e1, e2, -⟩
    · exact ⟨hold.many, hold.left, hold.right, hold.leftTimes, hold.rightTimes⟩
    · have := hold.many
      simp [contactsOf, e1, e2] at this

/-- C90: nor does any that follows, whatever settings are changed in between. -/
theorem C90_never (hpi : (0 : K) ≤ Trig.pi) (hsort : ∀ l r, SortedPtrs l r (sort l r)) {w0 : Walker K} (hw : Reached integ sort w0)
    (hold : HoldsWalk w0) (htries : Tries integ sort w0 w) {t dT e : K} : w.generate integ fuel sort t dT e ≠ .done true w' := by
  have : Reached integ sort w ∧ HoldsWalk w := by
    induction htries with
    | refl => exact ⟨hw, hold⟩
    | op w1 o _ ih =>
      obtain ⟨h1, h2⟩ := ih
      obtain ⟨-, e1, e2⟩ := C82_settings_keep (w := w1) o
      exact ⟨.op _ _ h1, ⟨by unfold contactsOf; rw [e1, e2]; exact h2.many, by rw [e1]; exact h2.left, by rw [e2]; exact h2.right,
        by rw [e1]; exact h2.leftTimes, by rw [e2]; exact h2.rightTimes⟩⟩
    | generate w1 w' fuel t dT e b _ h ih =>
      obtain ⟨h1, h2⟩ := ih
      exact ⟨.call _ _ fuel (.generate t dT e) b h1 h, holds_generate hpi h1 h2 h⟩
  exact C90_again hpi hsort this.1 this.2

/-! ## C90: how it fails -/

private theorem landing_after {p : Planner K} {left right left' right' : FootPrint K} {t e : K} {d : Plan K} (hp : Timed p)
    (h : PlanOf p integ left right t e left' right' d) : ∀ x ∈ d.log, t ≤ x.step.impactTime := by
  intro x hx
  rcases List.mem_append.mp hx with hx | hx
  · have off0 : 0 ≤ d.start.offset := by
      show 0 ≤ (if d.q.firstStep then d.q.nominalTime else 0)
      split_ifs
      · rw [h.nominalTime]; exact hp.nominal_nonneg
      · exact le_refl _
    have := (Planner.run_situations (p := d.q) (sol := d.sol) (L := d.left) (R := d.right) (I := fun c => 0 ≤ c.offset)
      (P := fun _ e => t ≤ e.step.impactTime) (fun c e _ _ => le_refl _) (fun c e hc he => by
        obtain ⟨-, -, -, a, -⟩ := Planner.decided_facts he
        rw [h.initTime] at a
        linarith) h.run off0).1
    exact Along.all (Planner.Situations.along this) x hx
  · have := Along.all ((h.terminal_along hp.nominal_nonneg).mono (fun s e h => h.2.2)) x hx
    have := hp.nominal_nonneg
    linarith

private theorem ordered_of_ub {cfg : GenSettings K} {left right : FootPrint K} {t dT : K} {sorted : List (Ptr K)} {why : UB}
    (hlen : 2 ≤ sorted.length) (h : timeline cfg left right t dT sorted = .ub why) : ∃ ordered, orderSteps sorted = .ok ordered := by
  cases ho : orderSteps sorted with
  | ok o => exact ⟨o, rfl⟩
  | ub w' => have := orderSteps_ub ho; omega
  | fail =>
    unfold timeline at h
    split at h
    · rw [ho] at h
      split_ifs at h
      cases h
    · cases h

/-- Among sorted contacts whose tail increases strictly there is only one latest one. -/
private theorem one_latest {l : List (Ptr K)} {M : K} (hlen : 4 ≤ l.length)
    (hs : l.Pairwise fun a b => a.step.impactTime ≤ b.step.impactTime)
    (ht : (l.drop 2).Pairwise fun a b => a.step.impactTime < b.step.impactTime) (hM : ∀ q ∈ l, q.step.impactTime ≤ M) :
    (l.filter fun q => decide (q.step.impactTime = M)).length ≤ 1 := by
  obtain ⟨l, b, rfl⟩ : ∃ l' b, l = l' ++ [b] := ⟨l.dropLast, _, (List.dropLast_append_getLast (by rintro rfl; simp at hlen)).symm⟩
  obtain ⟨l, a, rfl⟩ : ∃ l' b, l = l' ++ [b] := ⟨l.dropLast, _, (List.dropLast_append_getLast (by rintro rfl; simp at hlen)).symm⟩
  have hl : 2 ≤ l.length := by simp only [List.length_append, List.length_singleton] at hlen; omega
  have hab : a.step.impactTime < b.step.impactTime := by
    rw [List.append_assoc, List.drop_append_of_le_length hl] at ht
    have := (List.pairwise_append.mp ht).2.1
    simpa using this
  have hb := hM b (by simp)
  have hn : (l ++ [a]).filter (fun q => decide (q.step.impactTime = M)) = [] := by
    refine List.filter_eq_nil_iff.mpr fun q hq => ?_
    have : q.step.impactTime ≤ a.step.impactTime := by
      rcases List.mem_append.mp hq with hq | hq
      · have h1 := (List.pairwise_append.mp (List.pairwise_append.mp hs).1).2.2 q hq a (by simp)
        exact h1
      · simp only [List.mem_singleton] at hq; rw [hq]
    have hne : q.step.impactTime ≠ M := ne_of_lt (by linarith)
    simpa using hne
  rw [List.filter_append, hn, List.nil_append]
  exact (List.length_filter_le _ _).trans (by simp)

private theorem aligned {l0 r0 l r : FootPrint K} (h : Realigned l0 r0 l r) : ∃ M a b, l.steps.getLast? = some a ∧ r.steps.getLast? = some b ∧
    a.impactTime = M ∧ b.impactTime = M := by
  obtain ⟨a, b, h1, h2, ⟨h3, rfl, rfl⟩ | ⟨-, rfl, older, s, h4, rfl⟩ | ⟨-, ⟨older, s, h4, rfl⟩, rfl⟩⟩ := h
  · exact ⟨_, a, b, h1, h2, h3, rfl⟩
  · exact ⟨a.impactTime, a, { s with impactTime := a.impactTime, footName := r0.footName }, h1, by simp, rfl, rfl⟩
  · exact ⟨b.impactTime, { s with impactTime := b.impactTime, footName := l0.footName }, b, by simp, h2, rfl, rfl⟩

/-- C90: what happens then: the planner adds its steps to those of the old walk, the call returns false, and no trajectory is
generated (unless the contacts are shorter than half a sample, see C35). -/
theorem C90_fails (hpi : (0 : K) ≤ Trig.pi) (hsort : ∀ l r, SortedPtrs l r (sort l r)) (hw : Reached integ sort w) (hold : HoldsWalk w)
    {t dT e : K} (hdT : dT / 2 ≤ w.cfg.endSwitch) {p : Planner K} {l r : FootPrint K}
    (h : w.planner.computeNewSteps integ fuel w.left w.right t e = .done true p l r) :
    ∃ w', w.generate integ fuel sort t dT e = .done false w' ∧ w'.left = l ∧ w'.right = r ∧ w'.planner = p ∧
      w'.cubic = w.cubic ∧ w'.minJerk = w.minJerk ∧ w'.zmp = w.zmp ∧ w'.dcm = w.dcm ∧ w'.height = w.height := by
  have hp := hw.timed hpi
  obtain ⟨c1, c2, o1, o2, -, -⟩ := old_contacts hp hold h
  have hs := hsort l r
  have hv : ValidTimings w.cfg := by
    obtain ⟨ops, e⟩ := hw.history.cfg
    rw [e]; exact C36_settings ops
  have ht : timeline w.cfg l r t dT (sort l r) = .fail := by
    cases ht : timeline w.cfg l r t dT (sort l r) with
    | fail => rfl
    | ok x =>
      obtain ⟨-, h3⟩ := third hs (show timeline w.cfg l r t dT (sort l r) = .ok (x.1, x.2) from ht)
      have := filter_le_of_drop (P := fun q => decide (q.step.impactTime ≤ t)) (n := 3) fun q hq => by simpa using h3 q hq
      rw [count_ptrs hs (show timeline w.cfg l r t dT (sort l r) = .ok (x.1, x.2) from ht)] at c1
      omega
    | ub why =>
      exfalso
      rcases timeline_ub hv hs ht with ⟨-, -, hall⟩ | ⟨-, hlt, -⟩
      · have hd : ¬ dT ≤ 0 := by
          intro hd
          rw [timeline_rejected (.inr (.inr (.inr (.inl hd))))] at ht
          cases ht
        have hend := hv.end_pos
        obtain ⟨d, hpl⟩ := Planner.exists_plan hp hold.leftTimes hold.rightTimes h
        rcases hpl.effect with ⟨hne, el, er⟩ | ⟨-, hre⟩
        · obtain ⟨x, hx⟩ := List.exists_mem_of_ne_nil _ hne
          have h1 := landing_after hp hpl x hx
          have h2 := hall x.step (by
            rw [el, er]
            cases hb : x.left with
            | true => exact List.mem_append_left _ (List.mem_append_right _ (List.mem_map.mpr ⟨x, List.mem_filter.mpr ⟨hx, by simp [hb]⟩, rfl⟩))
            | false => exact List.mem_append_right _ (List.mem_append_right _ (List.mem_map.mpr ⟨x, List.mem_filter.mpr ⟨hx, by simp [hb]⟩, rfl⟩)))
          linarith [not_le.mp hd]
        · obtain ⟨M, a, b, ha, hb, ea, eb⟩ := aligned hre
          have hsl : (sort l r).length = (l.steps ++ r.steps).length := by rw [hs.1.length_eq, ofFeet_length, List.length_append]
          obtain ⟨o, ho⟩ := ordered_of_ub (by omega) ht
          obtain ⟨q1, q2, q3⟩ := orderSteps_ok ho hs.2
          have hle : ∀ s ∈ l.steps ++ r.steps, s.impactTime ≤ M := by
            intro s hs
            rcases List.mem_append.mp hs with hs | hs
            · rw [← ea]; exact InOrder.le_last o1 ha s hs
            · rw [← eb]; exact InOrder.le_last o2 hb s hs
          have hle' : ∀ q ∈ o, q.step.impactTime ≤ M := by
            intro q hq
            by_contra hc
            have hz : ((l.steps ++ r.steps).filter fun s => decide (M < s.impactTime)) = [] :=
              List.filter_eq_nil_iff.mpr fun s hs => by simpa using hle s hs
            have := count_ordered hs ho (fun s => decide (M < s.impactTime))
            rw [hz, List.length_nil] at this
            have hq' := List.filter_eq_nil_iff.mp (List.length_eq_zero_iff.mp this.symm) q hq
            exact hq' (by simpa using hc)
          have hone := one_latest (M := M) (by rw [q1.length_eq]; omega) q2 q3 hle'
          rw [← count_ordered hs ho (fun s => decide (s.impactTime = M)), List.filter_append, List.length_append] at hone
          have p1 : 0 < (l.steps.filter fun s => decide (s.impactTime = M)).length :=
            List.length_pos_of_mem (List.mem_filter.mpr ⟨List.mem_of_getLast? ha, by simpa using ea⟩)
          have p2 : 0 < (r.steps.filter fun s => decide (s.impactTime = M)).length :=
            List.length_pos_of_mem (List.mem_filter.mpr ⟨List.mem_of_getLast? hb, by simpa using eb⟩)
          omega
      · linarith
  have hplan : w.plan integ fuel t e = .done true { w with planner := p, left := l, right := r } := by
    unfold Walker.plan
    rw [h]
  refine ⟨{ w with planner := p, left := l, right := r, outputs := outputsAfter w.cfg l r t dT (sort l r) w.outputs }, ?_,
    rfl, rfl, rfl, rfl, rfl, rfl, rfl, rfl⟩
  unfold Walker.generate
  rw [hplan]
  simp only [Result.next, fromMembers, generateFromFootPrints, ht]

/-! ## Footprints changed by the user -/

/-- The states that the object can be in include those in which the user has changed the footprints behind the pointers that
`getLeftFootPrint` and `getRightFootPrint` hand out (include/UnicycleGenerator.h:32-34). -/
theorem Reached.footPrints (hw : Reached integ sort w) (l r : FootPrint K) : Reached integ sort { w with left := l, right := r } := by
  refine .call _ _ 0 (.fromFootPrints l r 0 0) false hw ?_
  have hrej : Rejected l r (0 : K) 0 := Or.inr (Or.inr (Or.inr (Or.inl (le_refl _))))
  simp only [Walker.call, Walker.generateFromFootPrints, timeline_rejected hrej, C61_rejected_keep hrej]

/-! ## C80: starting from two contacts -/

/-- C80: `generate` for a robot that stands on one contact per foot: it succeeds as soon as the planner does, unless the request comes so
late that a step could be due less than `gap` after it (a step takes at least the minimum duration). -/
theorem C80_generate_contacts (hpi : (0 : K) ≤ Trig.pi) (hexp : Trig.exp (0 : K) = 1)
    (hsort : ∀ l r, SortedPtrs l r (sort l r)) (hw : Reached integ sort w) {gap t dT : K} (hd : 0 < dT) (hg : 0 < gap)
    (hgm : gap ≤ w.planner.minTime) (hu : Usable w gap dT) (hn : Names w w.left w.right)
    {a b : Step K} (hl : w.left.steps = [a]) (hr : w.right.steps = [b]) (ha : 0 ≤ a.impactTime) (hb : 0 ≤ b.impactTime)
    (htime : a.impactTime = b.impactTime ∨ t + gap ≤ max a.impactTime b.impactTime + w.planner.minTime)
    {e : K} {p' : Planner K} {left right : FootPrint K}
    (h : w.planner.computeNewSteps integ fuel w.left w.right t e = .done true p' left right) :
    ∃ w' n, w.generate integ fuel sort t dT e = .done true w' ∧ w'.left = left ∧ w'.right = right ∧ w'.planner = p' ∧
      Complete w' n := by
  have hp := hw.timed hpi
  have hL : NonNeg w.left := by intro s hs; rw [hl] at hs; simp only [List.mem_singleton] at hs; rw [hs]; exact ha
  have hR : NonNeg w.right := by intro s hs; rw [hr] at hs; simp only [List.mem_singleton] at hs; rw [hs]; exact hb
  obtain ⟨d, hpl⟩ := Planner.exists_plan hp hL hR h
  have hl' : w.left.steps.getLast? = some a := by rw [hl]; rfl
  have hr' : w.right.steps.getLast? = some b := by rw [hr]; rfl
  have hf : d.q.firstStep = true ∨ t + gap ≤ d.prev.impactTime + w.planner.minTime := by
    rcases htime with e | e
    · exact Or.inl (hpl.starts_together (Or.inr ⟨a, b, hl', hr', e⟩))
    · right
      rw [hpl.prev_latest hl' hr']
      exact e
  have hplan : w.plan integ fuel t e = .done true { w with planner := p', left := left, right := right } := by
    unfold Walker.plan
    rw [h]
  have hh := hw.history.plan hplan
  obtain ⟨w', k1, k2⟩ := plan_generates (w := { w with planner := p', left := left, right := right }) (dT := dT) hexp hh
    ⟨hu.fine, hu.cubic, hu.minJerk, hu.zmp, hu.dcm, hu.height⟩ hd hg hp hgm hpl (by rw [hl, hr]; rfl) (by rw [hl]; simp)
    ⟨hn.left_steps, hn.right_steps, hn.differ, hn.dcm⟩ hf (hsort left right)
  obtain ⟨n, hn⟩ := k2.complete
  refine ⟨w', n, ?_, k2.left_steps, k2.right_steps, k2.planner, hn⟩
  unfold Walker.generate
  rw [hplan]
  simp only [Result.next, fromMembers, k1]

/-! ## Examples -/

section

/-- Rational stand-ins, good enough for examples that go straight ahead. -/
local instance : Trig ℚ :=
  ⟨fun _ => 1, fun _ => 0, fun q => Nat.sqrt (⌊q * 10 ^ 8⌋₊) / 10 ^ 4, fun x => 1 + x, fun _ => 0, fun _ _ => 0, 22 / 7⟩

/-- The unicycle goes straight ahead. -/
private def straight : Integrator ℚ := fun p u t0 _ =>
  (p.ctrl, some fun t => ⟨⟨u.position.x + (t - t0) / 40, u.position.y⟩, u.angle⟩)

/-- Two generators attached. -/
private def demo : Walker ℚ := (Walker.new 0).runAll [.planner (.setPlannerPeriod (1 / 2)), .planner (.setUnicycleController .direct),
  .addCubic, .cubic (.setStepHeight (1 / 10)), .addHeight, .height 1 0]

/-- The walk of `demo`, and the one that should follow it. -/
private def twice : Bool :=
  match demo.generate straight 1000 insertion 0 (1 / 2) 10 with
  | .done true w =>
    decide (4 ≤ (contactsOf w).length ∧ w.left.steps.Pairwise (fun a b => a.impactTime ≤ b.impactTime) ∧
      w.right.steps.Pairwise (fun a b => a.impactTime ≤ b.impactTime) ∧
      (∀ s ∈ w.left.steps, 0 ≤ s.impactTime) ∧ ∀ s ∈ w.right.steps, 0 ≤ s.impactTime) && decide ((1 / 2 : ℚ) / 2 ≤ w.cfg.endSwitch) &&
    (match w.plan straight 1000 20 30 with
      | .done true w1 => decide ((contactsOf w).length < (contactsOf w1).length)
      | _ => false)
  | _ => false

private theorem twice_checked : twice = true := by decide +kernel

/-- Non-vacuity of C90: a walk has been generated, the planner accepts the next request, but the request fails. -/
example : ∃ w w1 w' : Walker ℚ, Reached straight insertion w ∧ HoldsWalk w ∧ w.plan straight 1000 20 30 = .done true w1 ∧
    (contactsOf w).length < (contactsOf w1).length ∧ w.generate straight 1000 insertion 20 (1 / 2) 30 = .done false w' := by
  have h := twice_checked
  unfold twice at h
  split at h
  case h_2 => cases h
  rename_i w hw
  have hr : Reached straight insertion w := .call _ _ 1000 (.generate 0 (1 / 2) 10) true (Reached.runAll _ (.new 0)) hw
  simp only [Bool.and_eq_true, decide_eq_true_eq] at h
  obtain ⟨⟨⟨h1, h2, h3, h4, h5⟩, h6⟩, h7⟩ := h
  split at h7
  case h_2 => cases h7
  rename_i w1 e1
  have hold : HoldsWalk w := ⟨h1, h2, h3, h4, h5⟩
  obtain ⟨p, l, r, e, -⟩ := plan_of e1
  obtain ⟨w', k, -⟩ := C90_fails (by decide +kernel) insertion_sorts hr hold h6 e
  exact ⟨w, w1, w', hr, hold, e1, of_decide_eq_true h7, k⟩

/-- The robot has just landed on the left foot. -/
private def landed : Walker ℚ := { demo with
  left := { footName := "left", steps := [⟨⟨0, 7 / 100⟩, 0, 4, "left"⟩] }
  right := { footName := "right", steps := [⟨⟨0, - 7 / 100⟩, 0, 1, "right"⟩] } }

/-- Non-vacuity of C80 for two contacts. -/
example : ∃ w' n, landed.generate straight 1000 insertion 4 (1 / 2) 30 = .done true w' ∧ Complete w' n := by
  have h0 : (match landed.plan straight 1000 4 30 with
      | .done b _ => b
      | _ => false) = true := by decide +kernel
  obtain ⟨w1, h⟩ : ∃ w1, landed.plan straight 1000 4 30 = .done true w1 := by
    generalize landed.plan straight 1000 4 30 = r at h0
    cases r with
    | done b w => cases b <;> simp_all
    | ub => simp at h0
    | outOfFuel => simp at h0
  obtain ⟨p, l, r, e, -⟩ := plan_of h
  obtain ⟨w', n, h1, -, -, -, h2⟩ := C80_generate_contacts (gap := demo.planner.minTime) (dT := 1 / 2) (by decide +kernel) (by decide +kernel)
    insertion_sorts (Reached.footPrints (Reached.runAll _ (.new 0)) _ _) (by decide +kernel) (by decide +kernel) (le_refl _)
    (w := landed)
    { fine := ⟨by decide +kernel, by decide +kernel, by decide +kernel, by decide +kernel⟩
      cubic := by intro p h; cases h; decide +kernel
      minJerk := by intro p h; cases h
      zmp := by intro h; exact absurd rfl h
      dcm := by intro p h; cases h
      height := by intro p h; cases h; decide +kernel }
    ⟨by simp [Named, landed], by simp [Named, landed], by decide +kernel, fun h => absurd rfl h⟩ rfl rfl (by norm_num) (by norm_num)
    (Or.inr (by decide +kernel)) e
  exact ⟨w', n, h1, h2⟩

end

end Uni.Spec
