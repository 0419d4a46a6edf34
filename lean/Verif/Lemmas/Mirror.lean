import Verif.Spec.Mirror
import Verif.Lemmas.WalkerRun
import Verif.Lemmas.MovedZmp

/-! # Mirrored walks: timings and feet -/

set_option autoImplicit false
set_option linter.unusedSectionVars false

namespace Uni

namespace Out
variable {α β γ δ : Type}

/-- If the first computation succeeds then so does the second one, and the results correspond. -/
def Follows (R : α → β → Prop) (x : Out α) (y : Out β) : Prop := ∀ a, x = .ok a → ∃ b, y = .ok b ∧ R a b

theorem Follows.ok {R : α → β → Prop} {a : α} {b : β} (h : R a b) : Follows R (.ok a) (.ok b) := by
  rintro _ ⟨⟩; exact ⟨b, rfl, h⟩

theorem Follows.fail {R : α → β → Prop} {y : Out β} : Follows R .fail y := fun _ h => by cases h

theorem Follows.ub {R : α → β → Prop} {w : UB} {y : Out β} : Follows R (.ub w) y := fun _ h => by cases h

theorem Follows.bind {R : α → β → Prop} {S : γ → δ → Prop} {x : Out α} {y : Out β} {k : α → Out γ} {k' : β → Out δ}
    (h : Follows R x y) (hk : ∀ a b, x = .ok a → R a b → Follows S (k a) (k' b)) : Follows S (x >>= k) (y >>= k') := by
  intro c hc
  obtain ⟨a, ha, hc⟩ := Out.bind_eq_ok.mp hc
  obtain ⟨b, rfl, hab⟩ := h a ha
  exact hk a b ha hab c hc

theorem Follows.bind_same {S : γ → δ → Prop} {x : Out α} {k : α → Out γ} {k' : α → Out δ}
    (hk : ∀ a, x = .ok a → Follows S (k a) (k' a)) : Follows S (x >>= k) (x >>= k') :=
  Follows.bind (R := fun a b => b = a) (fun a h => ⟨a, h, rfl⟩) fun a b h e => by rw [e]; exact hk a h

theorem Follows.of_map {f : α → β} {x : Out α} {y : Out β} (h : y = x.map f) : Follows (fun a b => b = f a) x y := by
  intro a ha
  subst ha
  exact ⟨f a, h, rfl⟩

theorem Follows.mono {R S : α → β → Prop} {x : Out α} {y : Out β} (h : Follows R x y) (hRS : ∀ a b, R a b → S a b) :
    Follows S x y := fun a ha => by
  obtain ⟨b, hb, r⟩ := h a ha
  exact ⟨b, hb, hRS a b r⟩

end Out

namespace Spec.Mirror

theorem name_name (s : String) : name (name s) = s := by
  unfold name
  split_ifs <;> simp_all

theorem name_inj {a b : String} : name a = name b ↔ a = b :=
  ⟨fun h => by rw [← name_name a, h, name_name], fun h => by rw [h]⟩

theorem name_left {s : String} : name s = "left" ↔ s = "right" := by
  rw [show "left" = name "right" from by decide]; exact name_inj

theorem name_right {s : String} : name s = "right" ↔ s = "left" := by
  rw [show "right" = name "left" from by decide]; exact name_inj

theorem phase_phase (p : Phase) : phase (phase p) = p := by cases p <;> rfl

variable {K : Type} [Field K] [LinearOrder K] [IsStrictOrderedRing K] [FloorRing K] [Trig K]

@[simp] theorem step_position (s : Step K) : (step s).position = vector s.position := rfl
@[simp] theorem step_angle (s : Step K) : (step s).angle = -s.angle := rfl
@[simp] theorem step_impactTime (s : Step K) : (step s).impactTime = s.impactTime := rfl
@[simp] theorem step_footName (s : Step K) : (step s).footName = name s.footName := rfl
@[simp] theorem footPrint_steps (f : FootPrint K) : (footPrint f).steps = f.steps.map step := rfl
@[simp] theorem footPrint_footName (f : FootPrint K) : (footPrint f).footName = name f.footName := rfl
@[simp] theorem ptr_left (q : Ptr K) : (ptr q).left = !q.left := rfl
@[simp] theorem ptr_index (q : Ptr K) : (ptr q).index = q.index := rfl
@[simp] theorem ptr_step (q : Ptr K) : (ptr q).step = step q.step := rfl

theorem vector_vector (v : Vec2 K) : vector (vector v) = v := by ext <;> simp [vector]
theorem vector_add (v w : Vec2 K) : vector (v + w) = vector v + vector w := by
  ext <;> simp only [vector, Vec2.add_x, Vec2.add_y]; ring
theorem vector_sub (v w : Vec2 K) : vector (v - w) = vector v - vector w := by
  ext <;> simp only [vector, Vec2.sub_x, Vec2.sub_y]; ring
theorem vector_mul (k : K) (v : Vec2 K) : vector (k * v) = k * vector v := by
  ext <;> simp only [vector, Vec2.smul_x, Vec2.smul_y]; ring
theorem vector_zero : vector (0 : Vec2 K) = 0 := by ext <;> simp [vector]

theorem rot_vector (hp : TrigParity K) (a : K) (v : Vec2 K) : rot (-a) (vector v) = vector (rot a v) := by
  ext <;> simp only [rot, vector, hp.cos, hp.sin] <;> ring

/-! ## Order of the steps -/

theorem adjacentDup (l : List (Ptr K)) : Gen.adjacentDup (l.map ptr) = Gen.adjacentDup l := by
  induction l with
  | nil => rfl
  | cons a l ih =>
    cases l with
    | nil => rfl
    | cons b l =>
      simp only [List.map_cons, Gen.adjacentDup] at ih ⊢
      rw [ih]; rfl

theorem orderSteps (l : List (Ptr K)) : Gen.orderSteps (l.map ptr) = (Gen.orderSteps l).map (List.map ptr) := by
  rcases l with _ | ⟨a, _ | ⟨b, rest⟩⟩
  · rfl
  · rfl
  · simp only [List.map_cons, Gen.orderSteps]
    rw [adjacentDup]
    split
    · rfl
    · rcases rest with _ | ⟨c, rest⟩
      · rfl
      · simp only [List.map_cons, ptr_step, step_impactTime, step_footName, name_inj]
        split <;> rfl

/-! ## Timings -/

/-- Left and right are exchanged, except for the flag of the last swing. -/
structure Swapped (t t' : Timing K) : Prop where
  left : t'.left = t.right
  right : t'.right = t.left
  shifts : t'.shifts = t.shifts
  merges : t'.merges = t.merges
  leftIndex : t'.leftIndex = t.rightIndex
  rightIndex : t'.rightIndex = t.leftIndex
  prevTime : t'.prevTime = t.prevTime

theorem whichSwings (q : Ptr K) (i j : Nat) : Gen.whichSwings (ptr q) j i = (Gen.whichSwings q i j).map not := by
  unfold Gen.whichSwings
  cases h : q.left <;> simp only [ptr_left, ptr_index, h] <;> by_cases h1 : q.index = i <;> by_cases h2 : q.index = j <;>
    simp [h1, h2] <;> split_ifs <;> simp_all

theorem addStep (cfg : GenSettings K) (dT : K) (nl nr : Nat) (first half : Bool) (q : Ptr K) {s s' : Timing K}
    (h : Swapped s s') :
    Out.Follows (fun t t' => Swapped t t' ∧ t'.swingLeft = !t.swingLeft) (Gen.addStep cfg dT nl nr first half q s)
      (Gen.addStep cfg dT nr nl first half (ptr q) s') := by
  unfold Gen.addStep
  simp only [ptr_step, step_impactTime, h.prevTime, h.leftIndex, h.rightIndex, h.shifts, whichSwings]
  split
  · exact Out.Follows.fail
  refine Out.Follows.bind_same fun a _ => Out.Follows.bind_same fun b _ => Out.Follows.bind_same fun c _ => ?_
  rw [Out.bind_map]
  refine Out.Follows.bind_same fun d _ => Out.Follows.bind_same fun m _ => Out.Follows.ok ?_
  refine ⟨⟨?_, ?_, rfl, ?_, ?_, ?_, rfl⟩, rfl⟩ <;> cases d <;> simp [h.left, h.right, h.merges]

theorem addSteps (cfg : GenSettings K) (dT : K) (nl nr : Nat) (half : Bool) (l : List (Ptr K)) :
    ∀ (first : Bool) (s s' : Timing K), Swapped s s' → l ≠ [] ∨ s'.swingLeft = (!s.swingLeft) →
      Out.Follows (fun t t' => Swapped t t' ∧ t'.swingLeft = !t.swingLeft) (Gen.addSteps cfg dT nl nr first half l s)
        (Gen.addSteps cfg dT nr nl first half (l.map ptr) s') := by
  induction l with
  | nil => exact fun first s s' h hs => Out.Follows.ok ⟨h, hs.resolve_left (by simp)⟩
  | cons q l ih =>
    intro first s s' h _
    simp only [List.map_cons, Gen.addSteps]
    exact Out.Follows.bind (addStep cfg dT nl nr first (first && half) q h) fun a b _ hab => ih false a b hab.1 (.inr hab.2)

theorem addLast (cfg : GenSettings K) (dT : K) {s s' : Timing K} (h : Swapped s s') (hs : s'.swingLeft = !s.swingLeft) :
    Out.Follows Swapped (Gen.addLast cfg dT s) (Gen.addLast cfg dT s') := by
  unfold Gen.addLast
  simp only [h.shifts]
  refine Out.Follows.bind_same fun n _ => Out.Follows.bind_same fun m _ => Out.Follows.ok ?_
  refine ⟨?_, ?_, rfl, by simp [h.merges], h.leftIndex, h.rightIndex, h.prevTime⟩ <;>
    simp only [h.left, h.right, hs] <;> cases s.swingLeft <;> rfl

/-- The timings in the mirror: exchanged, or the same if the robot stands on contacts that have been made together. -/
structure Timings (t t' : Timing K) : Prop where
  shifts : t'.shifts = t.shifts
  merges : t'.merges = t.merges
  phases : (t'.left = t.right ∧ t'.right = t.left) ∨
    ∃ n, t.left = List.replicate n .switchOut ∧ t.right = List.replicate n .switchIn ∧ t'.left = t.left ∧ t'.right = t.right ∧
      t.shifts = [0, n]

theorem createPhasesTimings (cfg : GenSettings K) (initTime dT : K) (left right : List (Step K)) (ordered : List (Ptr K))
    (hl : 2 ≤ ordered.length) :
    Out.Follows (fun t t' => Timings t t' ∧ ((∃ a b, left.head? = some a ∧ right.head? = some b ∧
        (ordered.length ≠ 2 ∨ a.impactTime ≠ b.impactTime)) → t'.left = t.right ∧ t'.right = t.left))
      (Gen.createPhasesTimings cfg initTime dT left right ordered)
      (Gen.createPhasesTimings cfg initTime dT (right.map step) (left.map step) (ordered.map ptr)) := by
  unfold Gen.createPhasesTimings
  rcases left with _ | ⟨l, left⟩
  · exact Out.Follows.ub
  rcases right with _ | ⟨r, right⟩
  · exact Out.Follows.ub
  rw [List.getLast?_map]
  cases h : ordered.getLast? with
  | none => exact Out.Follows.ub
  | some last =>
    simp only [List.map_cons, Option.map_some, List.length_map]
    split
    · rename_i h2
      refine Out.Follows.bind_same fun n _ => Out.Follows.ok ?_
      simp only [step_impactTime]
      rcases lt_trichotomy l.impactTime r.impactTime with h | h | h
      · have h' := not_lt.mpr h.le
        exact ⟨⟨rfl, rfl, .inl (by simp [h, h'])⟩, fun _ => by simp [h, h']⟩
      · refine ⟨⟨rfl, rfl, .inr ⟨n, by simp [h], by simp [h], by simp [h], by simp [h], rfl⟩⟩, ?_⟩
        rintro ⟨a, b, ⟨⟩, ⟨⟩, hab⟩
        exact (hab.elim (fun hab => hab h2) (fun hab => hab h)).elim
      · have h' := not_lt.mpr h.le
        exact ⟨⟨rfl, rfl, .inl (by simp [h, h'])⟩, fun _ => by simp [h, h']⟩
    · rename_i h2
      simp only [ptr_step, step_impactTime]
      by_cases h3 : ⌈(last.step.impactTime - initTime + cfg.endSwitch) / dT⌉ < 0
      · simp only [if_pos h3]
        exact Out.Follows.ub
      · simp only [if_neg h3, ne_comm (a := r.impactTime) (b := l.impactTime), ← List.map_drop, List.length_cons,
          List.length_map]
        refine Out.Follows.bind (addSteps cfg dT _ _ _ _ true _ ⟨[], [], [0], [0], 1, 1, initTime, false, false⟩ ⟨rfl, rfl, rfl, rfl, rfl, rfl, rfl⟩ (.inl ?_)) ?_
        · intro h0
          have := congrArg List.length h0
          simp at this; omega
        · intro s s' _ hs
          refine (addLast cfg dT hs.1 hs.2).mono fun t t' ht => ?_
          exact ⟨⟨ht.shifts, ht.merges, .inl ⟨ht.left, ht.right⟩⟩, fun _ => ⟨ht.left, ht.right⟩⟩

theorem timeline (cfg : GenSettings K) (left right : FootPrint K) (initTime dT : K) (sorted : List (Ptr K))
    (hs : SortedPtrs left right sorted) :
    Out.Follows (fun o o' => o'.1 = o.1.map ptr ∧ Timings o.2 o'.2 ∧
        (¬ StandsTied left right → o'.2.left = o.2.right ∧ o'.2.right = o.2.left))
      (Gen.timeline cfg left right initTime dT sorted)
      (Gen.timeline cfg (footPrint right) (footPrint left) initTime dT (sorted.map ptr)) := by
  unfold Gen.timeline
  simp only [footPrint_steps, footPrint_footName]
  have hlen := hs.1.length_eq
  rw [Gen.ofFeet_length] at hlen
  rcases hl : left.steps with _ | ⟨l, ls⟩
  · exact Out.Follows.fail
  rcases hr : right.steps with _ | ⟨r, rs⟩
  · exact Out.Follows.fail
  rw [hl, hr] at hlen
  simp only [List.map_cons, step_impactTime, name_inj, eq_comm (a := right.footName)]
  split
  · exact Out.Follows.fail
  split
  · exact Out.Follows.fail
  rw [max_comm r.impactTime]
  split
  · exact Out.Follows.fail
  rw [orderSteps, Out.bind_map]
  refine Out.Follows.bind_same fun o ho => ?_
  have hol : o.length = sorted.length := (Gen.orderSteps_ok ho hs.2).1.length_eq
  rw [← List.map_cons, ← List.map_cons]
  refine Out.Follows.bind (createPhasesTimings { cfg with nominalSwitchTime := cfg.switchPercentage * cfg.nominalStepTime }
    initTime dT (l :: ls) (r :: rs) o (by simp at hlen; omega)) fun t t' _ ht => ?_
  refine Out.Follows.ok ⟨rfl, ht.1, fun hn => ht.2 ⟨l, r, rfl, rfl, ?_⟩⟩
  by_contra hc
  push Not at hc
  obtain ⟨h2, h3⟩ := hc
  simp only [List.length_cons] at hlen
  refine hn ⟨l, r, ?_, ?_, h3⟩
  · rw [hl, List.length_eq_zero_iff.mp (by omega : ls.length = 0)]
  · rw [hr, List.length_eq_zero_iff.mp (by omega : rs.length = 0)]

end Spec.Mirror
end Uni
