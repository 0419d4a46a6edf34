import Verif.Lemmas.PlannerCall

/-! # Helper lemmas: consequences of the refinement -/

set_option autoImplicit false
set_option linter.unusedSectionVars false

namespace Uni.Planner
open Spec
variable {K : Type*} [Field K] [LinearOrder K] [Trig K] [IsStrictOrderedRing K]
variable {p : Planner K} {sol : K → UState K} {L R : Foot K}

theorem stepOf_time (F : Foot K) (u : UState K) (t : K) : (stepOf F u t).impactTime = t := rfl

/-- What every decided landing satisfies. -/
theorem decided_facts {c : Stance K} {e : Landing K} (h : Decided p sol L R c e) :
    e.left = c.left ∧ e.kind ≠ .terminal ∧ c.prev.impactTime + p.minTime ≤ e.step.impactTime ∧
      p.initTime + c.offset < e.step.impactTime ∧ e.step.impactTime ≤ p.endTime := by
  cases h with
  | optimised n m h =>
    obtain ⟨h1, -, -, h4, h5, -⟩ := h
    refine ⟨rfl, by simp, ?_, h5.1.2, (h1 m h4).1⟩
    have := h5.1.1
    rw [stepOf_time]
    simp only [searchFrom] at this ⊢
    linarith
  | parallel n h =>
    obtain ⟨-, h2, h3, -⟩ := h
    refine ⟨rfl, by simp, ?_, h3.1.2, h2⟩
    have := h3.1.1
    rw [stepOf_time]
    simp only [searchFrom] at this ⊢
    linarith

theorem run_situations {P : Stance K → Landing K → Prop} {I : Stance K → Prop}
    (hI : ∀ c e, I c → Decided p sol L R c e → I (c.next p e.step))
    (hP : ∀ c e, I c → Decided p sol L R c e → P c e) {c c' : Stance K} {log : List (Landing K)}
    (h : Run p sol L R c log c') : I c → Situations p P c log ∧ I c' := by
  induction h with
  | stop c h => exact fun hi => ⟨trivial, hi⟩
  | land c e log c' h1 h2 ih => exact fun hi => ⟨⟨hP c e hi h1, (ih (hI c e hi h1)).1⟩, (ih (hI c e hi h1)).2⟩

theorem Situations.mono {P Q : Stance K → Landing K → Prop} (h : ∀ c e, P c e → Q c e) :
    ∀ {log : List (Landing K)} {c : Stance K}, Situations p P c log → Situations p Q c log
  | [], _, _ => trivial
  | _ :: _, _, hs => ⟨h _ _ hs.1, Situations.mono h hs.2⟩

/-- From the situations to the steps. -/
theorem Situations.along {P : Step K → Landing K → Prop} :
    ∀ {log : List (Landing K)} {c : Stance K}, Situations p (fun c e => P c.prev e) c log → Along P c.prev log
  | [], _, _ => trivial
  | _ :: _, _, hs => ⟨hs.1, Situations.along hs.2⟩

theorem run_along_append {P : Step K → Landing K → Prop} {c c' : Stance K} {log T : List (Landing K)}
    (h : Run p sol L R c log c') (hT : Along P c'.prev T) : Along P c.prev log → Along P c.prev (log ++ T) := by
  induction h with
  | stop c h => exact fun _ => hT
  | land c e log c' h1 h2 ih => exact fun ha => ⟨ha.1, ih hT ha.2⟩

theorem run_alternates_append {c c' : Stance K} {log T : List (Landing K)}
    (h : Run p sol L R c log c') (hT : Alternates c'.left T) : Alternates c.left (log ++ T) := by
  induction h with
  | stop c h => exact hT
  | land c e log c' h1 h2 ih => exact ⟨(decided_facts h1).1, ih hT⟩

theorem terminal_alternates {c : Stance K} {u : UState K} {T : List (Landing K)} (h : TerminalLog p L R c u T) :
    Alternates c.left T := by
  cases h <;> simp [Alternates]

theorem terminal_along {c : Stance K} {u : UState K} {T : List (Landing K)} (h : TerminalLog p L R c u T)
    (hn : 0 ≤ p.nominalTime) :
    Along (fun s e => e.kind = .terminal ∧ s.impactTime + p.nominalTime ≤ e.step.impactTime ∧
      p.initTime + p.nominalTime ≤ e.step.impactTime) c.prev T := by
  cases h with
  | both h =>
    refine ⟨⟨rfl, le_max_right _ _, le_max_left _ _⟩, ⟨rfl, le_refl _, ?_⟩, trivial⟩
    rw [stepOf_time]
    exact (le_max_left _ _).trans (le_add_of_nonneg_right hn)
  | close h1 h2 => exact ⟨⟨rfl, le_max_right _ _, le_max_left _ _⟩, trivial⟩
  | skip h1 h2 => trivial

/-- The last steps of the two footprints are those of the situation. -/
def Holds (l r : FootPrint K) (c : Stance K) : Prop :=
  (if c.left then r else l).steps.getLast? = some c.prev ∧ (if c.left then l else r).steps.getLast? = c.last

theorem extendBy_cons (fp : FootPrint K) (b : Bool) (e : Landing K) (log : List (Landing K)) :
    extendBy fp b (e :: log) = extendBy (extendBy fp b [e]) b log := by
  cases b <;> cases h : e.left <;> simp [extendBy, stepsOf, h]

theorem extendBy_nil (fp : FootPrint K) (b : Bool) : extendBy fp b [] = fp := by simp [extendBy, stepsOf]

theorem extendBy_append (fp : FootPrint K) (b : Bool) (l m : List (Landing K)) :
    extendBy fp b (l ++ m) = extendBy (extendBy fp b l) b m := by
  simp [extendBy, stepsOf]

theorem extendBy_single_same (fp : FootPrint K) (b : Bool) (st : Step K) (k : StepKind) :
    (extendBy fp b [⟨b, st, k⟩]).steps = fp.steps ++ [st] := by
  simp [extendBy, stepsOf]

theorem extendBy_single_other (fp : FootPrint K) (b : Bool) (st : Step K) (k : StepKind) :
    extendBy fp b [⟨!b, st, k⟩] = fp := by
  cases b <;> simp [extendBy, stepsOf]

theorem Holds.next {l r : FootPrint K} {c : Stance K} (h : Holds l r c) (e : Landing K) (he : e.left = c.left) :
    Holds (extendBy l true [e]) (extendBy r false [e]) (c.next p e.step) := by
  obtain ⟨b, st, k⟩ := e
  simp only at he
  subst he
  unfold Holds at h ⊢
  obtain ⟨cl, prev, last, s0, z, o⟩ := c
  cases cl <;> simpa [Stance.next, extendBy, stepsOf] using h.1

theorem run_holds {c c' : Stance K} {log : List (Landing K)} (h : Run p sol L R c log c') :
    ∀ {l r : FootPrint K}, Holds l r c → Holds (extendBy l true log) (extendBy r false log) c' := by
  induction h with
  | stop c h => intro l r hh; rwa [extendBy_nil, extendBy_nil]
  | land c e log c' h1 h2 ih =>
    intro l r hh
    rw [extendBy_cons l, extendBy_cons r]
    exact ih (hh.next e (decided_facts h1).1)

/-! ## Determinism -/

section
variable {c : Stance K}

theorem search_time_mono (hd : 0 ≤ p.dT) : Monotone (searchFrom p sol L R c).time :=
  monotone_nat_of_le_succ fun k => by rw [searchFrom_time_succ]; exact le_nextTime hd _

theorem due_cases {n m m' : Nat} (h : (searchFrom p sol L R c).Optimal n m) (h' : (searchFrom p sol L R c).Optimal n m') :
    m = m' := by
  have a := h.2.2.2.2.2 m' h'.2.2.2.1 h'.2.2.2.2.1
  have b := h'.2.2.2.2.2 m h.2.2.2.1 h.2.2.2.2.1
  have e := le_antisymm a.1 b.1
  exact le_antisymm (b.2 e) (a.2 e.symm)

theorem decided_unique {e e' : Landing K} (h : Decided p sol L R c e) (h' : Decided p sol L R c e') : e = e' := by
  cases h with
  | optimised n m h =>
    cases h' with
    | optimised n' m' h' =>
      have : n = n' := by
        rcases lt_trichotomy n n' with hlt | he | hlt
        · exact absurd h.2.2.2.2.1 (((h'.1 n hlt).2 h.2.2.1).1 m h.2.2.2.1)
        · exact he
        · exact absurd h'.2.2.2.2.1 (((h.1 n' hlt).2 h'.2.2.1).1 m' h'.2.2.2.1)
      subst this
      rw [due_cases h h']
    | parallel n' h' =>
      exfalso
      rcases lt_trichotomy n n' with hlt | he | hlt
      · exact ((h'.1 n hlt).2 h.2.2.1).1 m h.2.2.2.1 h.2.2.2.2.1
      · subst he; exact h'.2.2.2.1 m h.2.2.2.1 h.2.2.2.2.1
      · have := ((h.1 n' hlt).2 h'.2.2.1).2
        rw [h'.2.2.2.2] at this; cases this
  | parallel n h =>
    cases h' with
    | optimised n' m' h' =>
      exfalso
      rcases lt_trichotomy n' n with hlt | he | hlt
      · exact ((h.1 n' hlt).2 h'.2.2.1).1 m' h'.2.2.2.1 h'.2.2.2.2.1
      · subst he; exact h.2.2.2.1 m' h'.2.2.2.1 h'.2.2.2.2.1
      · have := ((h'.1 n hlt).2 h.2.2.1).2
        rw [h.2.2.2.2] at this; cases this
    | parallel n' h' =>
      have : n = n' := by
        rcases lt_trichotomy n n' with hlt | he | hlt
        · have := ((h'.1 n hlt).2 h.2.2.1).2
          rw [h.2.2.2.2] at this; cases this
        · exact he
        · have := ((h.1 n' hlt).2 h'.2.2.1).2
          rw [h'.2.2.2.2] at this; cases this
      subst this
      rfl

theorem decided_not_exhausted (hd : 0 ≤ p.dT) {e : Landing K} (h : Decided p sol L R c e)
    (h' : (searchFrom p sol L R c).Exhausted) : False := by
  obtain ⟨k, hk, hk'⟩ := h'
  have key : ∀ n, (searchFrom p sol L R c).time n ≤ (searchFrom p sol L R c).endTime → n < k := by
    intro n hn
    by_contra hc
    exact absurd (hk'.trans_le (search_time_mono hd (not_lt.mp hc))) (not_lt.mpr hn)
  cases h with
  | optimised n m h => exact ((hk n (key n h.2.1)).2 h.2.2.1).1 m h.2.2.2.1 h.2.2.2.2.1
  | parallel n h =>
    have := ((hk n (key n h.2.1)).2 h.2.2.1).2
    rw [h.2.2.2.2] at this; cases this

end

theorem run_unique (hd : 0 ≤ p.dT) {c c1 c2 : Stance K} {l1 l2 : List (Landing K)} (h1 : Run p sol L R c l1 c1) :
    Run p sol L R c l2 c2 → l1 = l2 ∧ c1 = c2 := by
  induction h1 generalizing l2 c2 with
  | stop c h =>
    intro h2
    cases h2 with
    | stop => exact ⟨rfl, rfl⟩
    | land _ _ _ _ h4 h5 => exact (decided_not_exhausted hd h4 h).elim
  | land c e log c' h3 h4 ih =>
    intro h2
    cases h2 with
    | stop _ h => exact (decided_not_exhausted hd h3 h).elim
    | land _ _ _ _ h6 h5 =>
      have := decided_unique h3 h6
      subst this
      obtain ⟨rfl, rfl⟩ := ih h5
      exact ⟨rfl, rfl⟩

theorem terminal_unique {c : Stance K} {u : UState K} {T T' : List (Landing K)} (h : TerminalLog p L R c u T)
    (h' : TerminalLog p L R c u T') : T = T' := by
  cases h <;> cases h' <;> first
    | rfl
    | (exfalso; simp_all)

/-! ## Fuel -/

theorem loop_mono : ∀ (n : Nat) (s : Loop K), p.loop sol n s ≠ .outOfFuel → ∀ k, p.loop sol (n + k) s = p.loop sol n s
  | 0, s, h, k => absurd rfl h
  | n + 1, s, h, k => by
    rw [show n + 1 + k = (n + k) + 1 by omega]
    unfold loop at h ⊢
    split_ifs with ht
    · rw [if_pos ht] at h
      cases hb : p.body sol s with
      | mk ok s' =>
        rw [hb] at h
        cases ok with
        | false => rfl
        | true => exact loop_mono n s' h k
    · rfl

theorem plan_mono {n : Nat} (h : p.plan sol n L R ≠ .outOfFuel) (k : Nat) : p.plan sol (n + k) L R = p.plan sol n L R := by
  unfold plan at h ⊢
  split
  · rfl
  · rename_i prev hp
    rw [hp] at h
    simp only at h
    have : p.loop sol n (p.initialLoop L R prev) ≠ .outOfFuel := by
      intro hc; rw [hc] at h; exact h rfl
    rw [loop_mono n _ this k]

theorem computeNewSteps_mono {integ : Integrator K} {left right : FootPrint K} {t0 t1 : K} {n : Nat}
    (h : p.computeNewSteps integ n left right t0 t1 ≠ .outOfFuel) (k : Nat) :
    p.computeNewSteps integ (n + k) left right t0 t1 = p.computeNewSteps integ n left right t0 t1 := by
  unfold computeNewSteps at h ⊢
  split_ifs with h1 h2 h3
  · rfl
  · rfl
  · rfl
  rw [if_neg h1, if_neg h2, if_neg h3] at h
  split
  · rfl
  · rename_i p1 hp1
    rw [hp1] at h
    simp only at h
    split
    · rfl
    · rfl
    · rename_i q l r sol hi
      rw [hi] at h
      simp only at h
      exact plan_mono h k

/-- With a zero period the loop never advances. -/
theorem loop_zero (hd : p.dT = 0) (s : Loop K) (hs : s.t ≤ p.endTime) (hg : s.t ≤ p.initTime + s.timeOffset) :
    ∀ n, p.loop sol n s = .outOfFuel
  | 0 => rfl
  | n + 1 => by
    have hadv : p.advance s = s := by
      unfold advance nextTime
      rw [hd, add_zero, if_neg (by rintro ⟨a, b⟩; exact lt_asymm a b)]
    unfold loop body
    rw [if_pos hs]
    simp only
    rw [if_neg (by rintro ⟨-, b⟩; exact absurd b (not_lt.mpr hg)), hadv]
    exact loop_zero hd s hs hg n

theorem plan_zero (hd : p.dT = 0) (hn : 0 ≤ p.nominalTime) (ht : p.initTime ≤ p.endTime) {prev : Step K}
    (hp : (if p.swingLeft then R else L).getLastStep = some prev) (n : Nat) : p.plan sol n L R = .outOfFuel := by
  unfold plan
  rw [hp]
  simp only
  rw [loop_zero hd]
  · exact ht
  · simp only [initialLoop]
    split_ifs
    · linarith
    · simp

end Uni.Planner
