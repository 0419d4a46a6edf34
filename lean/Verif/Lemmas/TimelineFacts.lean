import Verif.Lemmas.Timeline

/-! # Consequences of the timetable -/

set_option autoImplicit false
set_option linter.unusedSectionVars false

namespace Uni.Gen
open Spec

theorem slotSegs_take (f : Bool) (slots : List Slot) (k : Nat) :
    (slotSegs f slots).take (2 * k) = slotSegs f (slots.take k) := by
  induction slots generalizing k with
  | nil => simp [slotSegs]
  | cons s l ih =>
    cases k with
    | zero => simp [slotSegs]
    | succ k =>
      have ih := ih k
      simp only [slotSegs, List.flatMap_cons, List.take_succ_cons] at ih ⊢
      have : (Slot.segs f s).length = 2 := by unfold Slot.segs; split_ifs <;> rfl
      rw [List.take_append, this, ← ih]
      rw [List.take_of_length_le (by omega)]
      congr 2

theorem slotSegs_getElem (f : Bool) (slots : List Slot) (k : Nat) (s : Slot) (h : slots[k]? = some s) :
    (slotSegs f slots)[2 * k]? = some (if s.left = f then (.switchOut, s.ds) else (.switchIn, s.ds)) ∧
    (slotSegs f slots)[2 * k + 1]? = some (if s.left = f then (.swing, s.ss) else (.stance, s.ss)) := by
  induction slots generalizing k with
  | nil => simp at h
  | cons a l ih =>
    cases k with
    | zero =>
      simp only [List.getElem?_cons_zero, Option.some.injEq] at h
      subst h
      simp only [slotSegs, List.flatMap_cons, Slot.segs]
      split_ifs <;> simp
    | succ k =>
      have := ih k (by simpa using h)
      have hl : (Slot.segs f a).length = 2 := by unfold Slot.segs; split_ifs <;> rfl
      simp only [slotSegs, List.flatMap_cons] at this ⊢
      rw [List.getElem?_append_right (by omega), List.getElem?_append_right (by omega), hl]
      rw [show 2 * (k + 1) - 2 = 2 * k by omega, show 2 * (k + 1) + 1 - 2 = 2 * k + 1 by omega]
      exact this

theorem slotSegs_length (f : Bool) (slots : List Slot) : (slotSegs f slots).length = 2 * slots.length := by
  induction slots with
  | nil => rfl
  | cons a l ih =>
    simp only [slotSegs, List.flatMap_cons, List.length_append, List.length_cons] at ih ⊢
    have hl : (Slot.segs f a).length = 2 := by unfold Slot.segs; split_ifs <;> rfl
    omega

theorem slotSegs_snd (f g : Bool) (slots : List Slot) : (slotSegs f slots).map Prod.snd = (slotSegs g slots).map Prod.snd := by
  induction slots with
  | nil => rfl
  | cons a l ih =>
    simp only [slotSegs, List.flatMap_cons, List.map_append] at ih ⊢
    rw [ih]; congr 1
    unfold Slot.segs; split_ifs <;> rfl

/-- Number of samples before slot `k`. -/
def slotStart (slots : List Slot) (k : Nat) : Nat := total (slotSegs true (slots.take k))

theorem slotStart_succ (slots : List Slot) (k : Nat) (s : Slot) (h : slots[k]? = some s) :
    slotStart slots (k + 1) = slotStart slots k + s.ds + s.ss := by
  unfold slotStart
  rw [List.take_add_one, h]
  simp [slotSegs, total_segs, Nat.add_assoc]

theorem segs_eq (t : Timetable) (f : Bool) :
    t.segs f = slotSegs f t.slots ++ [(if t.lastLeft = f then .switchIn else .switchOut, t.rest)] := rfl

/-- The shifts around slot `k`. -/
theorem shifts_slot (t : Timetable) (k : Nat) (s : Slot) (h : t.slots[k]? = some s) :
    t.shifts[2 * k]? = some (slotStart t.slots k) ∧ t.shifts[2 * k + 1]? = some (slotStart t.slots k + s.ds) ∧
    t.shifts[2 * k + 2]? = some (slotStart t.slots k + s.ds + s.ss) := by
  have hk : k < t.slots.length := (List.getElem?_eq_some_iff.mp h).1
  have hlen := slotSegs_length true t.slots
  have htake : ∀ n, n ≤ 2 * t.slots.length → (t.segs true).take n = (slotSegs true t.slots).take n := by
    intro n hn
    rw [segs_eq, List.take_append_of_le_length (by omega)]
  have hsl : (t.segs true).length = 2 * t.slots.length + 1 := by simp [segs_eq, hlen]
  have hA := (slotSegs_getElem true t.slots k s h).1
  have hB := (slotSegs_getElem true t.slots k s h).2
  have e0 : total ((slotSegs true t.slots).take (2 * k)) = slotStart t.slots k := by rw [slotSegs_take]; rfl
  have e1 : total ((slotSegs true t.slots).take (2 * k + 1)) = slotStart t.slots k + s.ds := by
    rw [List.take_add_one, hA, total_append, e0]; split_ifs <;> simp
  have e2 : total ((slotSegs true t.slots).take (2 * k + 2)) = slotStart t.slots k + s.ds + s.ss := by
    rw [List.take_add_one, hB, total_append, e1]; split_ifs <;> simp
  refine ⟨?_, ?_, ?_⟩
  · unfold Timetable.shifts
    cases k with
    | zero => simp [slotStart, slotSegs]
    | succ k =>
      rw [show 2 * (k + 1) = (2 * k + 1) + 1 by omega, List.getElem?_cons_succ, ends_getElem _ _ _ (by omega),
        htake _ (by omega)]
      rw [show 2 * k + 1 + 1 = 2 * (k + 1) by omega, e0]; simp
  · unfold Timetable.shifts
    rw [List.getElem?_cons_succ, ends_getElem _ _ _ (by omega), htake _ (by omega), e1]; simp
  · unfold Timetable.shifts
    rw [List.getElem?_cons_succ, ends_getElem _ _ _ (by omega), htake _ (by omega), e2]; simp

/-- The phases of a foot during slot `k`. -/
theorem phases_slot (t : Timetable) (f : Bool) (k : Nat) (s : Slot) (h : t.slots[k]? = some s) :
    (∀ j, slotStart t.slots k ≤ j → j < slotStart t.slots k + s.ds →
      (t.phases f)[j]? = some (if s.left = f then .switchOut else .switchIn)) ∧
    (∀ j, slotStart t.slots k + s.ds ≤ j → j < slotStart t.slots k + s.ds + s.ss →
      (t.phases f)[j]? = some (if s.left = f then .swing else .stance)) := by
  have hk : k < t.slots.length := (List.getElem?_eq_some_iff.mp h).1
  have hlen := slotSegs_length f t.slots
  have htake : ∀ n, n ≤ 2 * t.slots.length → (t.segs f).take n = (slotSegs f t.slots).take n := by
    intro n hn
    rw [segs_eq, List.take_append_of_le_length (by omega)]
  obtain ⟨hA, hB⟩ := slotSegs_getElem f t.slots k s h
  have e0 : total ((slotSegs f t.slots).take (2 * k)) = slotStart t.slots k := by
    rw [slotSegs_take]; exact total_congr (slotSegs_snd _ _ _)
  have e1 : total ((slotSegs f t.slots).take (2 * k + 1)) = slotStart t.slots k + s.ds := by
    rw [List.take_add_one, hA, total_append, e0]; split_ifs <;> simp
  have e2 : total ((slotSegs f t.slots).take (2 * k + 2)) = slotStart t.slots k + s.ds + s.ss := by
    rw [List.take_add_one, hB, total_append, e1]; split_ifs <;> simp
  have g : ∀ i, i < 2 * t.slots.length → (t.segs f)[i]? = (slotSegs f t.slots)[i]? := by
    intro i hi
    rw [segs_eq, List.getElem?_append_left (by omega)]
  constructor
  · intro j h1 h2
    have := expand_getElem (t.segs f) (2 * k) _ ((g _ (by omega)).trans hA) j
      (by rw [htake _ (by omega), e0]; exact h1) (by rw [htake _ (by omega), e1]; exact h2)
    rw [Timetable.phases, this]
    split_ifs <;> rfl
  · intro j h1 h2
    have := expand_getElem (t.segs f) (2 * k + 1) _ ((g _ (by omega)).trans hB) j
      (by rw [htake _ (by omega), e1]; exact h1) (by rw [htake _ (by omega), e2]; exact h2)
    rw [Timetable.phases, this]
    split_ifs <;> rfl

/-- The phases of a foot in the final double support. -/
theorem phases_rest (t : Timetable) (f : Bool) (j : Nat) (h1 : slotStart t.slots t.slots.length ≤ j)
    (h2 : j < total (t.segs true)) : (t.phases f)[j]? = some (if t.lastLeft = f then .switchIn else .switchOut) := by
  have hlen := slotSegs_length f t.slots
  have e : total (slotSegs f t.slots) = slotStart t.slots t.slots.length := by
    unfold slotStart
    rw [List.take_length]
    exact total_congr (slotSegs_snd _ _ _)
  refine expand_getElem (t.segs f) (2 * t.slots.length) (if t.lastLeft = f then .switchIn else .switchOut, t.rest) (by rw [segs_eq, List.getElem?_append_right (by omega), hlen]; simp) j ?_ ?_
  · rw [segs_eq, List.take_append_of_le_length (by omega), ← hlen, List.take_length, e]; exact h1
  · rw [List.take_of_length_le (by rw [segs_eq]; simp; omega), total_congr (segs_snd t f true)]; exact h2

theorem total_eq (t : Timetable) : total (t.segs true) = slotStart t.slots t.slots.length + t.rest := by
  rw [segs_eq, total_append]
  simp [slotStart]

theorem complementary_runs (t : Timetable) (j : Nat) (h : j < total (t.segs true)) :
    ∃ a b, (t.phases true)[j]? = some a ∧ (t.phases false)[j]? = some b ∧ Complementary a b := by
  by_cases hr : slotStart t.slots t.slots.length ≤ j
  · refine ⟨_, _, phases_rest t true j hr h, phases_rest t false j hr h, ?_⟩
    cases t.lastLeft <;> simp [Complementary]
  · have : ∀ n ≤ t.slots.length, j < slotStart t.slots n → ∃ k s, t.slots[k]? = some s ∧ slotStart t.slots k ≤ j ∧
        j < slotStart t.slots k + s.ds + s.ss := by
      intro n hn
      induction n with
      | zero => intro hj; simp [slotStart, slotSegs] at hj
      | succ n ih =>
        intro hj
        by_cases h' : j < slotStart t.slots n
        · exact ih (by omega) h'
        · have hs : t.slots[n]? = some t.slots[n] := List.getElem?_eq_getElem (by omega)
          exact ⟨n, _, hs, by omega, by rw [← slotStart_succ _ _ _ hs]; exact hj⟩
    obtain ⟨k, s, hs, h1, h2⟩ := this t.slots.length (le_refl _) (by omega)
    by_cases hd : j < slotStart t.slots k + s.ds
    · refine ⟨_, _, (phases_slot t true k s hs).1 j h1 hd, (phases_slot t false k s hs).1 j h1 hd, ?_⟩
      cases s.left <;> simp [Complementary]
    · refine ⟨_, _, (phases_slot t true k s hs).2 j (by omega) h2, (phases_slot t false k s hs).2 j (by omega) h2, ?_⟩
      cases s.left <;> simp [Complementary]

variable {K : Type} [Field K] [LinearOrder K] [IsStrictOrderedRing K] [FloorRing K]

/-- The slot of the `k`-th remaining step. -/
theorem Slots.get {cfg : GenSettings K} {dT t0 : K} {half first : Bool} {n : Nat} {l : List (Ptr K)} {slots : List Slot}
    {ms : List Nat} (h : Slots cfg dT t0 half first n l slots ms) :
    l.length = slots.length ∧ ∀ k q, l[k]? = some q → ∃ s, slots[k]? = some s ∧
      SlotOf cfg dT (first && half && decide (k = 0)) (t0 + ((n + slotStart slots k : Nat) : K) * dT) q s := by
  induction h with
  | nil => simp
  | cons first n q l s ss ms mss h1 h2 h3 ih =>
    refine ⟨by simp [ih.1], fun k q' hq => ?_⟩
    cases k with
    | zero =>
      simp only [List.getElem?_cons_zero, Option.some.injEq] at hq
      subst hq
      exact ⟨s, rfl, by simpa [slotStart, slotSegs] using h1⟩
    | succ k =>
      obtain ⟨s', h4, h5⟩ := ih.2 k q' (by simpa using hq)
      refine ⟨s', by simpa using h4, ?_⟩
      have e : n + slotStart (s :: ss) (k + 1) = n + s.ds + s.ss + slotStart ss k := by
        unfold slotStart
        simp [slotSegs, total_segs]; omega
      rw [e]
      simpa using h5

/-- Landing instants do not drift. -/
theorem SlotOf.drift {cfg : GenSettings K} {dT prev : K} {half : Bool} {q : Ptr K} {s : Slot} (hd : 0 < dT)
    (h : SlotOf cfg dT half prev q s) : |prev + ((s.ds + s.ss : Nat) : K) * dT - q.step.impactTime| ≤ dT / 2 := by
  have := stdRound_abs ((q.step.impactTime - prev) / dT)
  rw [← h.all] at this
  have e : prev + ((s.ds + s.ss : Nat) : K) * dT - q.step.impactTime =
      (((s.ds + s.ss : Nat) : K) - (q.step.impactTime - prev) / dT) * dT := by
    field_simp; ring
  rw [e, abs_mul, abs_of_pos hd]
  have h2 : ((((s.ds + s.ss : Nat) : ℤ) : K)) = ((s.ds + s.ss : Nat) : K) := by push_cast; ring
  rw [h2] at this
  calc _ ≤ 1 / 2 * dT := by gcongr
    _ = dT / 2 := by ring

/-- Steps are consumed in footprint order. -/
theorem Consumes.get {i j : Nat} {l : List (Ptr K)} (h : Consumes i j l) (k : Nat) (q : Ptr K) (hq : l[k]? = some q) :
    q.index = (if q.left then i else j) + (l.take k).countP (fun p => p.left == q.left) := by
  induction l generalizing i j k with
  | nil => simp at hq
  | cons a l ih =>
    cases k with
    | zero =>
      simp only [List.getElem?_cons_zero, Option.some.injEq] at hq
      subst hq
      simpa using h.1
    | succ k =>
      have := ih h.2 k (by simpa using hq)
      rw [this, List.take_succ_cons, List.countP_cons]
      cases ha : a.left <;> cases hb : q.left <;> simp <;> omega

/-- No step after the first two is the first step of its foot. -/
theorem Consumes.index_pos {i j : Nat} {l : List (Ptr K)} (h : Consumes i j l) (hi : 0 < i) (hj : 0 < j) :
    ∀ q ∈ l, 0 < q.index := by
  intro q hq
  obtain ⟨k, hk⟩ := List.getElem?_of_mem hq
  rw [h.get k q hk]
  split_ifs <;> omega

/-- How many steps of a foot are among the steps after the first two. -/
theorem Run.counts {cfg : GenSettings K} {left right : FootPrint K} {initTime dT : K} {sorted ordered : List (Ptr K)}
    {t : Timing K} {l r : Step K} {tt : Timetable} (hr : Run cfg left right initTime dT sorted ordered t l r tt)
    (hs : SortedPtrs left right sorted) :
    (ordered.drop 2).countP (fun p => p.left == true) + 1 = left.steps.length ∧
    (ordered.drop 2).countP (fun p => p.left == false) + 1 = right.steps.length := by
  obtain ⟨hperm, -, -⟩ := orderSteps_ok hr.order hs.2
  have hperm := hperm.trans hs.1
  have hlen : ordered.length = left.steps.length + right.steps.length := by rw [hperm.length_eq, ofFeet_length]
  have hL : 0 < left.steps.length := by
    have := hr.headL; cases h : left.steps with
    | nil => rw [h] at this; simp at this
    | cons _ _ => simp
  have hR : 0 < right.steps.length := by
    have := hr.headR; cases h : right.steps with
    | nil => rw [h] at this; simp at this
    | cons _ _ => simp
  have cF : ∀ b (m : List (Step K)), (Ptr.ofFoot b m).countP (fun p => p.left == b) = m.length := by
    intro b m
    rw [List.countP_eq_length.mpr, ofFoot_length]
    intro q hq; simp [(mem_ofFoot.mp hq).1]
  have cF' : ∀ b c (m : List (Step K)), c ≠ b → (Ptr.ofFoot c m).countP (fun p => p.left == b) = 0 := by
    intro b c m hbc
    rw [List.countP_eq_zero]
    intro q hq; rw [(mem_ofFoot.mp hq).1]; simpa using hbc
  have cl : ordered.countP (fun p => p.left == true) = left.steps.length := by
    rw [hperm.countP_eq, Ptr.ofFeet, List.countP_append, cF, cF' true false _ (by simp)]; rfl
  have cr : ordered.countP (fun p => p.left == false) = right.steps.length := by
    rw [hperm.countP_eq, Ptr.ofFeet, List.countP_append, cF' false true _ (by simp), cF]; omega
  have hsplit : ∀ p : Ptr K → Bool, ordered.countP p = (ordered.take 2).countP p + (ordered.drop 2).countP p := by
    intro p
    rw [← List.countP_append, List.take_append_drop]
  -- the first two steps are the first ones of the two feet
  have hcons : ∀ q ∈ ordered.drop 2, 0 < q.index := by
    rcases hr.built.cases with ⟨h2, -⟩ | ⟨-, ms, -, -, -, hc, -⟩
    · intro q hq; rw [List.drop_of_length_le (by omega)] at hq; simp at hq
    · exact hc.index_pos (by omega) (by omega)
  have hfront : ∀ b, ∀ s, (if b then left.steps else right.steps)[0]? = some s → (⟨b, 0, s⟩ : Ptr K) ∈ ordered.take 2 := by
    intro b s hb
    have : (⟨b, 0, s⟩ : Ptr K) ∈ ordered := hperm.mem_iff.mpr (mem_ofFeet.mpr hb)
    rw [← List.take_append_drop 2 ordered, List.mem_append] at this
    rcases this with h | h
    · exact h
    · exact absurd (hcons _ h) (by simp)
  have hl0 := hfront true l (by rw [if_pos rfl, ← List.head?_eq_getElem?]; exact hr.headL)
  have hr0 := hfront false r (by rw [if_neg (by simp), ← List.head?_eq_getElem?]; exact hr.headR)
  have t2 : (ordered.take 2).length = 2 := by simp; omega
  have pl : 0 < (ordered.take 2).countP (fun p => p.left == true) := List.countP_pos_iff.mpr ⟨_, hl0, by simp⟩
  have pr : 0 < (ordered.take 2).countP (fun p => p.left == false) := List.countP_pos_iff.mpr ⟨_, hr0, by simp⟩
  have hsum : (ordered.take 2).countP (fun p => p.left == true) + (ordered.take 2).countP (fun p => p.left == false) = 2 := by
    have := List.length_eq_countP_add_countP (fun p : Ptr K => p.left == true) (l := ordered.take 2)
    have e : (ordered.take 2).countP (fun p => p.left == false) =
        (ordered.take 2).countP (fun a => decide ¬(a.left == true) = true) := by
      apply List.countP_congr
      intro x _; cases x.left <;> simp
    rw [e]; omega
  have := hsplit (fun p => p.left == true)
  have := hsplit (fun p => p.left == false)
  omega

/-- The first two steps are the first step of each foot. -/
theorem Run.front {cfg : GenSettings K} {left right : FootPrint K} {initTime dT : K} {sorted ordered : List (Ptr K)}
    {t : Timing K} {l r : Step K} {tt : Timetable} (hr : Run cfg left right initTime dT sorted ordered t l r tt)
    (hs : SortedPtrs left right sorted) :
    ordered.take 2 = [⟨true, 0, l⟩, ⟨false, 0, r⟩] ∨ ordered.take 2 = [⟨false, 0, r⟩, ⟨true, 0, l⟩] := by
  obtain ⟨hperm, -, -⟩ := orderSteps_ok hr.order hs.2
  have hperm := hperm.trans hs.1
  have hlen : ordered.length = left.steps.length + right.steps.length := by rw [hperm.length_eq, ofFeet_length]
  have hc := hr.counts hs
  have hcons : ∀ q ∈ ordered.drop 2, 0 < q.index := by
    rcases hr.built.cases with ⟨h2, -⟩ | ⟨-, ms, -, -, -, hc, -⟩
    · intro q hq; rw [List.drop_of_length_le (by omega)] at hq; simp at hq
    · exact hc.index_pos (by omega) (by omega)
  have hfront : ∀ b, ∀ s, (if b then left.steps else right.steps)[0]? = some s → (⟨b, 0, s⟩ : Ptr K) ∈ ordered.take 2 := by
    intro b s hb
    have : (⟨b, 0, s⟩ : Ptr K) ∈ ordered := hperm.mem_iff.mpr (mem_ofFeet.mpr hb)
    rw [← List.take_append_drop 2 ordered, List.mem_append] at this
    rcases this with h | h
    · exact h
    · exact absurd (hcons _ h) (by simp)
  have hl0 := hfront true l (by rw [if_pos rfl, ← List.head?_eq_getElem?]; exact hr.headL)
  have hr0 := hfront false r (by rw [if_neg (by simp), ← List.head?_eq_getElem?]; exact hr.headR)
  have t2 : (ordered.take 2).length = 2 := by simp; omega
  obtain ⟨a, b, hab⟩ := List.length_eq_two.mp t2
  rw [hab] at hl0 hr0 ⊢
  simp only [List.mem_cons, List.not_mem_nil, or_false] at hl0 hr0
  rcases hl0 with rfl | rfl <;> rcases hr0 with h | h
  · simp at h
  · subst h; exact .inl rfl
  · subst h; exact .inr rfl
  · simp at h

/-- If the feet have just enough steps, the comparison reads past the end iff the last step is a right one. -/
theorem pastEnd_iff (nl nr : Nat) (i j : Nat) (l : List (Ptr K))
    (hl : i + l.countP (fun p => p.left == true) = nl) (hr : j + l.countP (fun p => p.left == false) = nr) :
    PastEnd nl nr i j l = true ↔ ∃ q, l.getLast? = some q ∧ q.left = false := by
  induction l generalizing i j with
  | nil => simp [PastEnd]
  | cons q l ih =>
    rw [List.countP_cons] at hl hr
    have ih' := ih (if q.left then i + 1 else i) (if q.left then j else j + 1)
      (by cases hq : q.left <;> simp [hq] at hl ⊢ <;> omega) (by cases hq : q.left <;> simp [hq] at hr ⊢ <;> omega)
    simp only [PastEnd, Bool.or_eq_true, ih', decide_eq_true_eq, Bool.and_eq_true, Bool.not_eq_true']
    cases l with
    | nil =>
      cases hq : q.left <;> simp [hq] at hl hr ⊢ <;> omega
    | cons b l =>
      rw [List.getLast?_cons_cons]
      constructor
      · rintro ((h | h) | h)
        · cases hq : q.left
          · have hz : (b :: l).countP (fun p => p.left == true) = 0 := by
              generalize (b :: l).countP (fun p => p.left == true) = n at hl ⊢
              simp [hq] at hl; omega
            rw [List.countP_eq_zero] at hz
            obtain ⟨x, hx⟩ : ∃ x, (b :: l).getLast? = some x := ⟨_, List.getLast?_eq_some_getLast (by simp)⟩
            refine ⟨x, hx, ?_⟩
            have := hz x (List.mem_of_getLast? hx)
            simpa using this
          · simp [hq] at hl; omega
        · obtain ⟨hq, h⟩ := h
          simp [hq] at hr; omega
        · exact h
      · exact fun h => .inr h

end Uni.Gen
