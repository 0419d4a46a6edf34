import Verif.Lemmas.FeetWalk

/-! # At which sample a foot lands on which step -/

set_option autoImplicit false
set_option linter.unusedSectionVars false

namespace Uni
open Spec Gen

theorem countP_nth {α : Type} (p : α → Bool) (l : List α) (c : Nat) (hc : c < l.countP p) :
    ∃ m x, l[m]? = some x ∧ p x = true ∧ (l.take m).countP p = c := by
  induction l generalizing c with
  | nil => simp at hc
  | cons a l ih =>
    by_cases ha : p a = true
    · cases c with
      | zero => exact ⟨0, a, rfl, ha, rfl⟩
      | succ c =>
        rw [List.countP_cons_of_pos ha] at hc
        obtain ⟨m, x, h1, h2, h3⟩ := ih c (by omega)
        exact ⟨m + 1, x, h1, h2, by rw [List.take_succ_cons, List.countP_cons_of_pos ha, h3]⟩
    · rw [List.countP_cons_of_neg ha] at hc
      obtain ⟨m, x, h1, h2, h3⟩ := ih c hc
      exact ⟨m + 1, x, h1, h2, by rw [List.take_succ_cons, List.countP_cons_of_neg ha, h3]⟩

theorem countP_take_mono {α : Type} (p : α → Bool) (l : List α) {m n : Nat} (h : m ≤ n) :
    (l.take m).countP p ≤ (l.take n).countP p :=
  (List.take_sublist_take_left h).countP_le

theorem countP_take_succ {α : Type} (p : α → Bool) (l : List α) {m : Nat} {x : α} (h : l[m]? = some x) (hx : p x = true) :
    (l.take (m + 1)).countP p = (l.take m).countP p + 1 := by
  rw [List.take_add_one, h, List.countP_append]
  simp [hx]

/-- Landings of a foot before a sample of the slot number `k`. -/
theorem landings_slot (f : Bool) (slots : List Slot) (last : Seg) (hlast : last.1 ≠ .swing) (hlp : 0 < last.2)
    (hpos : ∀ s ∈ slots, 0 < s.ds ∧ 0 < s.ss) (k : Nat) (s : Slot) (hk : slots[k]? = some s) (m : Nat) (hm : m < s.ds + s.ss) :
    landings (expand (slotSegs f slots ++ [last])) (slotStart slots k + m) = (slots.take k).countP (fun x => x.left == f) := by
  induction slots generalizing k with
  | nil => simp at hk
  | cons x slots ih =>
    obtain ⟨hd, hs⟩ := hpos x (by simp)
    have h0 := expand_head_ne (f := f) hlast hlp (fun s hs => hpos s (List.mem_cons_of_mem x hs))
    have e : slotSegs f (x :: slots) = Slot.segs f x ++ slotSegs f slots := by simp [slotSegs]
    rw [e, List.append_assoc]
    cases k with
    | zero =>
      simp only [List.getElem?_cons_zero, Option.some.injEq] at hk
      subst hk
      have e0 : slotStart (x :: slots) 0 = 0 := by simp [slotStart, slotSegs, total]
      rw [e0, List.take_zero, List.countP_nil, Nat.zero_add]
      unfold Slot.segs
      by_cases hf : x.left = f
      · rw [if_pos hf]
        simp only [List.cons_append, List.nil_append, expand_cons]
        rcases Nat.lt_or_ge m x.ds with hlt | hge
        · unfold landings
          rw [List.countP_eq_zero]
          intro i hi
          rw [List.mem_range] at hi
          rw [List.getElem?_append_left (by simp; omega)]
          simp [List.getElem?_replicate]
        · rw [show m = x.ds + (m - x.ds) by omega, landings_contacts (by simp), landings_swing_lt _ _ _ (by omega)]
      · rw [if_neg hf]
        simp only [List.cons_append, List.nil_append, expand_cons]
        unfold landings
        rw [List.countP_eq_zero]
        intro i hi
        rw [List.mem_range] at hi
        rcases Nat.lt_or_ge i x.ds with hlt | hge
        · rw [List.getElem?_append_left (by simp; omega)]
          simp [List.getElem?_replicate]
        · rw [List.getElem?_append_right (by simp; omega), List.getElem?_append_left (by simp; omega)]
          simp [List.getElem?_replicate]
    | succ k =>
      rw [List.getElem?_cons_succ] at hk
      have ih := ih (fun s hs => hpos s (by simp [hs])) k hk
      have e1 : slotStart (x :: slots) (k + 1) = x.ds + (x.ss + slotStart slots k) := by
        simp [slotStart, slotSegs, total_segs, Nat.add_assoc]
      rw [List.take_succ_cons, List.countP_cons, e1]
      unfold Slot.segs
      by_cases hf : x.left = f
      · rw [if_pos hf]
        simp only [List.cons_append, List.nil_append, expand_cons]
        rw [show x.ds + (x.ss + slotStart slots k) + m = x.ds + (x.ss + (slotStart slots k + m)) by omega,
          landings_contacts (by simp), landings_swing_ge _ hs _ h0, ih]
        simp [hf, Nat.add_comm]
      · rw [if_neg hf]
        simp only [List.cons_append, List.nil_append, expand_cons]
        rw [show x.ds + (x.ss + slotStart slots k) + m = x.ds + (x.ss + (slotStart slots k + m)) by omega,
          landings_contacts (by simp), landings_contacts (by simp), ih]
        simp [hf]

/-- Landings of a foot before a sample of the last double support. -/
theorem landings_rest (f : Bool) (slots : List Slot) (last : Seg) (hlast : last.1 ≠ .swing) (hlp : 0 < last.2)
    (hpos : ∀ s ∈ slots, 0 < s.ds ∧ 0 < s.ss) (m : Nat) (hm : m < last.2) :
    landings (expand (slotSegs f slots ++ [last])) (slotStart slots slots.length + m) = slots.countP (fun x => x.left == f) := by
  induction slots with
  | nil =>
    have e0 : slotStart [] ([] : List Slot).length = 0 := by simp [slotStart, slotSegs, total]
    rw [e0, List.countP_nil, Nat.zero_add]
    simp only [slotSegs, List.flatMap_nil, List.nil_append, expand_cons]
    unfold landings
    rw [List.countP_eq_zero]
    intro i hi
    rw [List.mem_range] at hi
    rw [List.getElem?_append_left (by simp; omega)]
    simp [List.getElem?_replicate, hlast]
  | cons x slots ih =>
    obtain ⟨hd, hs⟩ := hpos x (by simp)
    have h0 := expand_head_ne (f := f) hlast hlp (fun s hs => hpos s (List.mem_cons_of_mem x hs))
    have e : slotSegs f (x :: slots) = Slot.segs f x ++ slotSegs f slots := by simp [slotSegs]
    have ih := ih (fun s hs => hpos s (by simp [hs]))
    have e1 : slotStart (x :: slots) (x :: slots).length = x.ds + (x.ss + slotStart slots slots.length) := by
      simp [slotStart, slotSegs, total_segs, Nat.add_assoc]
    rw [e, List.append_assoc, List.countP_cons, e1]
    unfold Slot.segs
    by_cases hf : x.left = f
    · rw [if_pos hf]
      simp only [List.cons_append, List.nil_append, expand_cons]
      rw [show x.ds + (x.ss + slotStart slots slots.length) + m = x.ds + (x.ss + (slotStart slots slots.length + m)) by omega,
        landings_contacts (by simp), landings_swing_ge _ hs _ h0, ih]
      simp [hf, Nat.add_comm]
    · rw [if_neg hf]
      simp only [List.cons_append, List.nil_append, expand_cons]
      rw [show x.ds + (x.ss + slotStart slots slots.length) + m = x.ds + (x.ss + (slotStart slots slots.length + m)) by omega,
        landings_contacts (by simp), landings_contacts (by simp), ih]
      simp [hf]

theorem slotStart_mono (slots : List Slot) {m n : Nat} (h : m ≤ n) : slotStart slots m ≤ slotStart slots n := by
  unfold slotStart
  have hp : slots.take m <+: slots.take n := List.take_prefix_take_left h
  obtain ⟨r, hr⟩ := hp
  rw [← hr]
  simp [slotSegs, total]

variable {K : Type} [Field K] [LinearOrder K] [IsStrictOrderedRing K] [FloorRing K]

theorem slots_left {cfg : GenSettings K} {dT t0 : K} {half first : Bool} {n : Nat} {l : List (Ptr K)} {slots : List Slot}
    {ms : List Nat} (h : Slots cfg dT t0 half first n l slots ms) : slots.map Slot.left = l.map Ptr.left := by
  induction h with
  | nil => rfl
  | cons first n q l s ss ms mss h1 _ _ ih => rw [List.map_cons, List.map_cons, ih, h1.left]

/-- Every step of a foot but the first is the landing of a slot, at most half a period away from the end of the slot. -/
theorem landing_of {cfg : GenSettings K} {left right : FootPrint K} {initTime dT : K} {sorted ordered : List (Ptr K)}
    {t : Timing K} {l r : Step K} {tt : Timetable} (hs : SortedPtrs left right sorted)
    (h : timeline cfg left right initTime dT sorted = .ok (ordered, t)) (hr : Run cfg left right initTime dT sorted ordered t l r tt)
    (f : Bool) (c : Nat) (s : Step K) (hc : (if f then left.steps else right.steps)[c + 1]? = some s) :
    ∃ m x, tt.slots[m]? = some x ∧ x.left = f ∧ (tt.slots.take m).countP (fun x => x.left == f) = c ∧
      |initTime + ((slotStart tt.slots (m + 1) : Nat) : K) * dT - s.impactTime| ≤ dT / 2 := by
  obtain ⟨h1, h2, h3, -⟩ := C37_all_steps hs h
  have hlen : c < (ordered.drop 2).countP (fun p => p.left == f) := by
    have := (List.getElem?_eq_some_iff.mp hc).1
    cases f <;> simp only [if_true, Bool.false_eq_true, if_false] at this <;> omega
  obtain ⟨m, q, g1, g2, g3⟩ := countP_nth _ _ c hlen
  have hq : ordered[m + 2]? = some q := by rw [List.getElem?_drop, Nat.add_comm] at g1; exact g1
  have hqf : q.left = f := by simpa using g2
  obtain ⟨k1, k2⟩ := h1 m q hq
  rw [hqf] at k1 k2
  rw [k1, g3, Nat.add_comm 1, hc] at k2
  cases k2
  obtain ⟨a, b, d, e1, e2, e3, -, -, -, -, e4⟩ := C37_no_drift hs h m q hq
  rcases hr.built.cases with ⟨hn, -⟩ | ⟨-, ms, hsl, -⟩
  · rw [List.drop_of_length_le (by omega)] at g1; simp at g1
  · have hm := slots_left hsl
    have hx : (tt.slots.map Slot.left)[m]? = some f := by rw [hm, List.getElem?_map, g1, Option.map_some, hqf]
    rw [List.getElem?_map, Option.map_eq_some_iff] at hx
    obtain ⟨x, hx1, hx2⟩ := hx
    refine ⟨m, x, hx1, hx2, ?_, ?_⟩
    · rw [← g3]
      have c1 : ∀ l : List Slot, l.countP (fun x => x.left == f) = (l.map Slot.left).countP (fun b => b == f) := by
        intro l; rw [List.countP_map]; rfl
      have c2 : ∀ l : List (Ptr K), l.countP (fun x => x.left == f) = (l.map Ptr.left).countP (fun b => b == f) := by
        intro l; rw [List.countP_map]; rfl
      rw [c1, c2, List.map_take, List.map_take, hm]
    · have := (shifts_slot tt m x hx1).2.2
      rw [← hr.built.shifts, e3] at this
      cases this
      rw [slotStart_succ tt.slots m x hx1]
      exact e4

end Uni
