import Verif.Lemmas.MirrorFeet

/-! # Mirrored walks: the ZMP -/

set_option autoImplicit false
set_option linter.unusedSectionVars false

namespace Uni

/-- The phase does not change between two consecutive shifts. -/
def AlignedFrom (phases : List Phase) : Nat → List Nat → Prop
  | _, [] => True
  | start, stop :: rest =>
    (∀ p, phases[start]? = some p → ∀ j, start ≤ j → j < stop → phases[j]? = some p) ∧ AlignedFrom phases stop rest

/-- The elements of two lists correspond; `n` is the index of the first ones. -/
inductive Zipped {α β : Type} (Q : Nat → α → β → Prop) : Nat → List α → List β → Prop
  | nil (n : Nat) : Zipped Q n [] []
  | cons {n : Nat} {a : α} {b : β} {l : List α} {m : List β} : Q n a b → Zipped Q (n + 1) l m → Zipped Q n (a :: l) (b :: m)

namespace Zipped
variable {α β : Type} {Q : Nat → α → β → Prop}

theorem append {n : Nat} {a b : List α} {a' b' : List β} (h : Zipped Q n a a') (h' : Zipped Q (n + a.length) b b') :
    Zipped Q n (a ++ b) (a' ++ b') := by
  induction h with
  | nil n => simpa using h'
  | cons h1 h2 ih =>
    refine .cons h1 (ih ?_)
    simpa [Nat.add_assoc, Nat.add_comm 1] using h'

theorem length {n : Nat} {a : List α} {b : List β} (h : Zipped Q n a b) : b.length = a.length := by
  induction h <;> simp_all

theorem get {n : Nat} {a : List α} {b : List β} (h : Zipped Q n a b) :
    ∀ (i : Nat) (x : α), a[i]? = some x → ∃ y, b[i]? = some y ∧ Q (n + i) x y := by
  induction h with
  | nil n => intro i x hx; simp at hx
  | @cons n x y l m h1 h2 ih =>
    intro i z hz
    cases i with
    | zero =>
      simp only [List.getElem?_cons_zero, Option.some.injEq] at hz
      subst hz
      exact ⟨y, rfl, h1⟩
    | succ i =>
      obtain ⟨y', h3, h4⟩ := ih i z (by simpa using hz)
      exact ⟨y', by simpa using h3, by rw [show n + (i + 1) = n + 1 + i by omega]; exact h4⟩

theorem of_map (f : α → β) (l : List α) : ∀ n, (∀ i x, l[i]? = some x → Q (n + i) x (f x)) → Zipped Q n l (l.map f) := by
  induction l with
  | nil => exact fun n _ => .nil n
  | cons a l ih =>
    intro n h
    refine .cons (h 0 a rfl) (ih (n + 1) fun i x hx => ?_)
    rw [show n + 1 + i = n + (i + 1) by omega]
    exact h (i + 1) x (by simpa using hx)

theorem to_map {f : α → β} {n : Nat} {l : List α} {m : List β} (h : Zipped (fun _ a b => b = f a) n l m) : m = l.map f := by
  induction h <;> simp_all

theorem of_length (h : ∀ i a b, Q i a b) : ∀ (n : Nat) (l : List α) (m : List β), m.length = l.length → Zipped Q n l m
  | n, [], [], _ => .nil n
  | n, a :: l, b :: m, he => .cons (h n a b) (of_length h (n + 1) l m (by simpa using he))
  | n, [], b :: m, he => by simp at he
  | n, a :: l, [], he => by simp at he

end Zipped

theorem phaseLoop_follows {S S' O O' : Type} (Rs : S → S' → Prop) (Q : Nat → O → O' → Prop) (fp : Phase → Phase)
    (body : Nat → Bool → Phase → Nat → Nat → S → Out (S × List O))
    (body' : Nat → Bool → Phase → Nat → Nat → S' → Out (S' × List O')) (phases : List Phase)
    (h : ∀ ph last p start stop s s', start ≤ stop → stop ≤ phases.length → (∀ j, start ≤ j → j < stop → phases[j]? = some p) →
      Rs s s' → Out.Follows (fun r r' => Rs r.1 r'.1 ∧ r.2.length = stop - start ∧ Zipped Q start r.2 r'.2)
        (body ph last p start stop s) (body' ph last (fp p) start stop s')) (shifts : List Nat) :
    ∀ (ph start : Nat) (s : S) (s' : S'), AlignedFrom phases start shifts → Rs s s' →
      Out.Follows (fun r r' => Rs r.1 r'.1 ∧ Zipped Q start r.2 r'.2) (phaseLoop body phases shifts ph start s)
        (phaseLoop body' (phases.map fp) shifts ph start s') := by
  induction shifts with
  | nil => exact fun ph start s s' _ hs => Out.Follows.ok ⟨hs, .nil _⟩
  | cons stop rest ih =>
    intro ph start s s' hal hs
    simp only [phaseLoop, List.getElem?_map, List.length_map]
    cases hp : phases[start]? with
    | none => exact Out.Follows.ub
    | some p =>
      simp only [Option.map_some]
      split
      · exact Out.Follows.ub
      split
      · exact Out.Follows.ub
      rename_i h1 h2
      refine Out.Follows.bind (h ph rest.isEmpty p start stop s s' (by omega) (by omega) (hal.1 p hp) hs) fun a b _ hab => ?_
      refine Out.Follows.bind (ih (ph + 1) stop a.1 b.1 hal.2 hab.1) fun c d _ hcd => Out.Follows.ok ⟨hcd.1, ?_⟩
      refine hab.2.2.append ?_
      rw [hab.2.1, show start + (stop - start) = stop by omega]
      exact hcd.2

theorem aligned_expand (segs : List Spec.Seg) : ∀ pre : List Phase,
    AlignedFrom (pre ++ Spec.expand segs) pre.length (Spec.ends pre.length segs) := by
  induction segs with
  | nil => exact fun _ => trivial
  | cons s l ih =>
    intro pre
    refine ⟨fun p hp j h1 h2 => ?_, ?_⟩
    · have hc : ∀ j, pre.length ≤ j → j < pre.length + s.2 → (pre ++ Spec.expand (s :: l))[j]? = some s.1 := by
        intro j h1 h2
        rw [List.getElem?_append_right h1, Spec.expand_cons, List.getElem?_append_left (by rw [List.length_replicate]; omega),
          List.getElem?_replicate, if_pos (by omega)]
      have := hc pre.length le_rfl (by omega)
      rw [this] at hp
      rw [hc j h1 h2, hp]
    · have := ih (pre ++ List.replicate s.2 s.1)
      simpa [Spec.expand_cons] using this

theorem Spec.Timetable.aligned (tt : Spec.Timetable) (f : Bool) : AlignedFrom (tt.phases f) 0 tt.shifts.tail := by
  rw [tt.shifts_eq f]
  exact aligned_expand (tt.segs f) []

namespace Spec.Mirror
variable {K : Type} [Field K] [LinearOrder K] [IsStrictOrderedRing K] [FloorRing K] [Trig K]

theorem hermite_weight (y0 v0 y1 T t : K) : hermite (1 - y0) (-v0) (1 - y1) 0 T t = weight (hermite y0 v0 y1 0 T t) := by
  simp only [hermite, weight, Motion.mk.injEq]
  refine ⟨?_, ?_, ?_⟩ <;> ring

theorem spline2_ok {y0 v0 y1 v1 T : K} {f : K → Motion K} (h : spline2 y0 v0 y1 v1 T = .ok f) :
    0 < T ∧ f = hermite y0 v0 y1 v1 T := by
  unfold spline2 at h
  split at h
  · cases h
  · rename_i hT
    cases h
    exact ⟨not_le.mp hT, rfl⟩

theorem spline2_pos {y0 v0 y1 v1 T : K} (h : 0 < T) : spline2 y0 v0 y1 v1 T = .ok (hermite y0 v0 y1 v1 T) := by
  unfold spline2; rw [if_neg (not_le.mpr h)]

theorem samples_weight (dT : K) (y0 v0 y1 T : K) (n : Nat) :
    Zmp.samples dT (hermite (1 - y0) (-v0) (1 - y1) 0 T) n = (Zmp.samples dT (hermite y0 v0 y1 0 T) n).map weight := by
  simp only [Zmp.samples, List.map_map]
  exact List.map_congr_left fun j _ => hermite_weight _ _ _ _ _

/-- A double support: initial and final weights are those of the other foot. -/
theorem weightBody_double (c : ZmpTimes K) (init : Motion K) (phases phases' : List Phase) (dT : K) (ph : Nat) (last : Bool)
    (p p' : Phase) (start stop : Nat) (hp : p = .switchIn ∨ p = .switchOut) (hp' : p' = .switchIn ∨ p' = .switchOut)
    (h0 : ph ≠ 1 → p' = phase p)
    (h1 : ∀ i, start ≤ i → i < stop → last = false → ∃ q, phases[i]? = some q ∧ phases'[i]? = some (phase q) ∧
      (q = .switchIn ∨ q = .switchOut)) :
    Out.Follows (fun r r' => r.2.length = stop - start ∧ r'.2 = r.2.map weight)
      (Zmp.weightBody c init phases dT ph last p start stop ())
      (Zmp.weightBody c (weight init) phases' dT ph last p' start stop ()) := by
  have hf : ∀ (i : Nat) (y : K), start ≤ i → i < stop → Zmp.finalWeight phases last i = .ok y →
      Zmp.finalWeight phases' last i = .ok (1 - y) := by
    intro i y hi1 hi2 hy
    unfold Zmp.finalWeight at hy ⊢
    cases last
    · obtain ⟨q, e1, e2, e3⟩ := h1 i hi1 hi2 rfl
      rw [e1] at hy
      rw [e2]
      rcases e3 with rfl | rfl <;> simp [phase] at hy ⊢ <;> simp [← hy]
    · simp only [if_true, Out.ok.injEq] at hy ⊢
      rw [← hy]; norm_num
  have e : ∀ (q : Phase), (q = .switchIn ∨ q = .switchOut) → ∀ (i : Motion K) phs, Zmp.weightBody c i phs dT ph last q start stop () =
      (let n := stop - start
       let y0 := if ph = 1 then i.pos else if q = .switchIn then 0 else 1
       let v0 := if ph = 1 then i.vel else 0
       if c.pauses dT n then do
        let f ← spline2 y0 v0 (1 / 2) 0 c.endSwitch
        let a := (stdRound (c.endSwitch / dT)).toNat
        let h := ((n : ℤ) - stdRound (c.nominalSwitch / dT) - a).toNat
        if n < a + h then .ub .unsignedWrap
        else do
          let y1 ← Zmp.finalWeight phs last (start + a + h)
          let g ← spline2 (1 / 2) 0 y1 0 (((n - (a + h) : Nat) : K) * dT)
          .ok ((), Zmp.samples dT f a ++ List.replicate h ⟨1 / 2, 0, 0⟩ ++ Zmp.samples dT g (n - (a + h)))
       else do
        let y1 ← Zmp.finalWeight phs last start
        let f ← spline2 y0 v0 y1 0 ((n : K) * dT)
        .ok ((), Zmp.samples dT f n)) := by
    rintro q (rfl | rfl) i phs <;> rfl
  rw [e p hp, e p' hp']
  have hy0 : (if ph = 1 then (weight init).pos else if p' = .switchIn then (0 : K) else 1) =
      1 - (if ph = 1 then init.pos else if p = .switchIn then 0 else 1) := by
    by_cases h : ph = 1
    · simp [h, weight]
    · rw [h0 h]
      rcases hp with rfl | rfl <;> simp [h, phase]
  have hv0 : (if ph = 1 then (weight init).vel else (0 : K)) = -(if ph = 1 then init.vel else 0) := by
    by_cases h : ph = 1 <;> simp [h, weight]
  simp only [hy0, hv0]
  generalize (if ph = 1 then init.pos else if p = .switchIn then (0 : K) else 1) = y0
  generalize (if ph = 1 then init.vel else (0 : K)) = v0
  have half : (1 / 2 : K) = 1 - 1 / 2 := by norm_num
  split
  · intro r hr
    obtain ⟨f, hf1, hr⟩ := Out.bind_eq_ok.mp hr
    obtain ⟨hT, rfl⟩ := spline2_ok hf1
    rw [spline2_pos hT, Out.bind_ok]
    split at hr
    · cases hr
    rename_i hn
    rw [if_neg hn]
    obtain ⟨y1, hy1, hr⟩ := Out.bind_eq_ok.mp hr
    obtain ⟨g, hg, hr⟩ := Out.bind_eq_ok.mp hr
    obtain ⟨hT2, rfl⟩ := spline2_ok hg
    cases hr
    have hlt : (stdRound (c.endSwitch / dT)).toNat + ((stop - start : Nat) - stdRound (c.nominalSwitch / dT) -
        (stdRound (c.endSwitch / dT)).toNat : ℤ).toNat < stop - start := by
      rcases Nat.lt_or_ge ((stdRound (c.endSwitch / dT)).toNat + ((stop - start : Nat) - stdRound (c.nominalSwitch / dT) -
        (stdRound (c.endSwitch / dT)).toNat : ℤ).toNat) (stop - start) with h | h
      · exact h
      · rw [Nat.sub_eq_zero_of_le h] at hT2; simp at hT2
    rw [hf _ y1 (by omega) (by omega) hy1, Out.bind_ok, spline2_pos hT2, Out.bind_ok]
    refine ⟨_, rfl, ?_, ?_⟩
    · simp [Zmp.samples]; omega
    · simp only [List.map_append, List.map_replicate, ← samples_weight]
      congr 1
      · congr 1
        · conv_lhs => rw [half]
        · simp [weight]; norm_num
      · conv_lhs => rw [half]
        simp
  · intro r hr
    obtain ⟨y1, hy1, hr⟩ := Out.bind_eq_ok.mp hr
    obtain ⟨f, hf1, hr⟩ := Out.bind_eq_ok.mp hr
    obtain ⟨hT, rfl⟩ := spline2_ok hf1
    cases hr
    have hlt : 0 < stop - start := by
      rcases Nat.eq_zero_or_pos (stop - start) with h | h
      · rw [h] at hT; simp at hT
      · exact h
    rw [hf _ y1 le_rfl (by omega) hy1, Out.bind_ok, spline2_pos hT, Out.bind_ok]
    exact ⟨_, rfl, by simp [Zmp.samples], samples_weight _ _ _ _ _ _⟩

theorem weightBody (c : ZmpTimes K) (init : Motion K) (phases : List Phase) (dT : K) (ph : Nat) (last : Bool) (p : Phase)
    (start stop : Nat) (hal : ∀ j, start ≤ j → j < stop → phases[j]? = some p) :
    Out.Follows (fun r r' => r.2.length = stop - start ∧ r'.2 = r.2.map weight)
      (Zmp.weightBody c init phases dT ph last p start stop ())
      (Zmp.weightBody c (weight init) (phases.map phase) dT ph last (phase p) start stop ()) := by
  cases p
  case stance =>
    refine Out.Follows.ok ⟨by simp, ?_⟩
    simp only [List.map_map]
    refine List.map_congr_left fun j hj => ?_
    have := hal (start + j) (by omega) (by have := List.mem_range.mp hj; omega)
    simp [List.getElem?_map, this, phase, weight]
  case swing =>
    refine Out.Follows.ok ⟨by simp, ?_⟩
    simp only [List.map_map]
    refine List.map_congr_left fun j hj => ?_
    have := hal (start + j) (by omega) (by have := List.mem_range.mp hj; omega)
    simp [List.getElem?_map, this, phase, weight]
  case switchIn =>
    exact weightBody_double c init phases _ dT ph last _ _ start stop (.inl rfl) (.inr rfl) (fun _ => rfl)
      fun i h1 h2 _ => ⟨_, hal i h1 h2, by rw [List.getElem?_map, hal i h1 h2]; rfl, .inl rfl⟩
  case switchOut =>
    exact weightBody_double c init phases _ dT ph last _ _ start stop (.inr rfl) (.inl rfl) (fun _ => rfl)
      fun i h1 h2 _ => ⟨_, hal i h1 h2, by rw [List.getElem?_map, hal i h1 h2]; rfl, .inr rfl⟩

theorem overPhases_single {S O : Type} (body : Nat → Bool → Phase → Nat → Nat → S → Out (S × List O)) (n : Nat) (p : Phase) (s : S) :
    overPhases body (List.replicate n p) [0, n] s = if n = 0 then .ub .outOfRange else body 1 true p 0 n s := by
  unfold overPhases
  simp only [List.tail_cons, phaseLoop]
  cases n with
  | zero => rfl
  | succ n =>
    simp only [List.replicate_succ, List.getElem?_cons_zero, List.length_cons, List.length_replicate, lt_irrefl, if_false,
      Nat.not_lt_zero, List.isEmpty_nil, Nat.add_eq_zero_iff, one_ne_zero, and_false, Out.bind_ok, List.append_nil]
    cases body 1 true p 0 (n + 1) s <;> rfl

theorem weights (c : ZmpTimes K) (init : Motion K) (dT : K) {t t' : Timing K} (h : Timings t t')
    (hc : t.right = t.left.map phase) (hal : AlignedFrom t.left 0 t.shifts.tail) :
    Out.Follows (fun l l' => l' = l.map weight) (Zmp.weights c init dT t.left t.shifts)
      (Zmp.weights c (weight init) dT t'.left t'.shifts) := by
  unfold Zmp.weights
  rw [h.shifts]
  rcases h.phases with ⟨h1, -⟩ | ⟨n, h1, -, h3, -, h5⟩
  · rw [h1, hc]
    refine Out.Follows.bind (phaseLoop_follows (fun _ _ => True) (fun _ a b => b = weight a) phase _ _ t.left ?_ _ _ _ _ _ hal trivial)
      fun a b _ hab => Out.Follows.ok hab.2.to_map
    intro ph last p start stop s s' _ _ hp _
    refine (weightBody c init t.left dT ph last p start stop hp).mono fun r r' hr => ⟨trivial, hr.1, ?_⟩
    rw [hr.2]
    exact Zipped.of_map _ _ _ fun _ _ _ => rfl
  · rw [h3, h1, h5, overPhases_single, overPhases_single]
    split
    · exact Out.Follows.ub
    · refine Out.Follows.bind (weightBody_double c init _ _ dT 1 true _ _ 0 n (.inr rfl) (.inr rfl) (fun h => absurd rfl h)
        fun i _ _ h => by cases h) fun a b _ hab => Out.Follows.ok hab.2

theorem recordStates (merges : List Nat) : ∀ (wl : List (Motion K)) (i m : Nat) (st st' : List (Motion K)),
    List.Forall₂ WeightMirrored st st' →
    Out.Follows (fun a b => List.Forall₂ WeightMirrored a b) (Zmp.recordStates merges wl i m st)
      (Zmp.recordStates merges (wl.map weight) i m st')
  | [], _, _, _, _, h => Out.Follows.ok h
  | w :: ws, i, m, st, st', h => by
    simp only [List.map_cons, Zmp.recordStates]
    cases merges[m]? with
    | none => exact Out.Follows.ub
    | some k =>
      simp only
      split
      · refine recordStates merges ws _ _ _ _ ?_
        have : ∀ (a b : List (Motion K)) (m : Nat), List.Forall₂ WeightMirrored a b →
            List.Forall₂ WeightMirrored (a.set m w) (b.set m (weight w)) := by
          intro a b m h
          induction h generalizing m with
          | nil => exact .nil
          | cons h1 h2 ih =>
            cases m with
            | zero => exact .cons (.inl rfl) h2
            | succ m => exact .cons h1 (ih m)
        exact this _ _ _ h
      · exact recordStates merges ws _ _ _ _ h

theorem resizeStates {st st' : List (Motion K)} (n : Nat) (h : List.Forall₂ WeightMirrored st st') :
    List.Forall₂ WeightMirrored (Zmp.resizeStates st n) (Zmp.resizeStates st' n) := by
  unfold Zmp.resizeStates
  rw [h.length_eq]
  refine List.rel_append (List.forall₂_take n h) ?_
  induction (n - st'.length) with
  | zero => exact .nil
  | succ n ih => exact .cons (.inr ⟨rfl, rfl⟩) ih

theorem move (p q : Vec2 K) (T : K) : Zmp.move (vector p) (vector q) T =
    (Zmp.move p q T).map fun f t => motion2 (f t) := by
  unfold Zmp.move spline2
  by_cases h : T ≤ 0
  · simp only [if_pos h, Out.bind_fail, Out.map_fail]
  · simp only [if_neg h, Out.bind_ok, Out.map_ok, Out.ok.injEq, vector]
    funext t
    simp only [motion2, hermite_neg]

theorem still (p : Vec2 K) : Zmp.still (vector p) = motion2 (Zmp.still p) := by
  simp [Zmp.still, motion2, motion, vector]

theorem localBody (c : ZmpTimes K) (stance switch : Vec2 K) (dT : K) (ph : Nat) (last : Bool) (p : Phase) (start stop : Nat) (s : Unit) :
    Zmp.localBody c (vector stance) (vector switch) dT ph last p start stop s =
      (Zmp.localBody c stance switch dT ph last p start stop s).map fun r => (r.1, r.2.map motion2) := by
  cases p
  case swing => simp [Zmp.localBody, still]
  case switchIn => simp [Zmp.localBody, still]
  case stance =>
    simp only [Zmp.localBody, move, Out.bind_map, Out.map_bind]
    refine Out.bind_congr fun f => ?_
    simp [Zmp.samples]
  case switchOut =>
    simp only [Zmp.localBody]
    split
    · simp [still]
    · simp only [move, Out.bind_map, Out.map_bind]
      refine Out.bind_congr fun f => ?_
      split
      · rfl
      · simp [Zmp.samples, still]

theorem localZmp_same (c : ZmpTimes K) (stance switch : Vec2 K) (dT : K) (phases : List Phase) (shifts : List Nat) :
    Zmp.localZmp c (vector stance) (vector switch) dT phases shifts =
      (Zmp.localZmp c stance switch dT phases shifts).map (List.map motion2) := by
  unfold Zmp.localZmp overPhases
  have := Move.phaseLoop_map (id : Unit → Unit) motion2 (Zmp.localBody c stance switch dT)
    (Zmp.localBody c (vector stance) (vector switch) dT) phases (fun a b c d e s => localBody _ _ _ _ _ _ _ _ _ _) shifts.tail 1 0 ()
  simp only [id] at this
  rw [this, Out.bind_map, Out.map_bind]
  rfl

theorem localZmp (c : ZmpTimes K) (stance switch : Vec2 K) (dT : K) {t t' : Timing K} (h : Timings t t') :
    Zmp.localZmp c (vector stance) (vector switch) dT t'.left t'.shifts =
        (Zmp.localZmp c stance switch dT t.right t.shifts).map (List.map motion2) ∧
      Zmp.localZmp c (vector stance) (vector switch) dT t'.right t'.shifts =
        (Zmp.localZmp c stance switch dT t.left t.shifts).map (List.map motion2) := by
  rw [h.shifts]
  rcases h.phases with ⟨h1, h2⟩ | ⟨n, h1, h2, h3, h4, h5⟩
  · rw [h1, h2]
    exact ⟨localZmp_same _ _ _ _ _ _, localZmp_same _ _ _ _ _ _⟩
  · rw [localZmp_same, localZmp_same]
    have e : ∀ n, Zmp.localZmp c stance switch dT (List.replicate n .switchOut) [0, n] =
        Zmp.localZmp c stance switch dT (List.replicate n .switchIn) [0, n] := by
      intro n
      unfold Zmp.localZmp
      rw [overPhases_single, overPhases_single]
      rfl
    rw [h3, h4, h1, h2, h5, e]
    exact ⟨rfl, rfl⟩

theorem localZmp_length {c : ZmpTimes K} {stance switch : Vec2 K} {dT : K} {phases : List Phase} {shifts : List Nat}
    {l : List (Motion2 K)} (h : Zmp.localZmp c stance switch dT phases shifts = .ok l) : l.length = shifts.tail.getLastD 0 := by
  unfold Zmp.localZmp at h
  obtain ⟨r, hr, h⟩ := Out.bind_eq_ok.mp h
  cases h
  unfold overPhases at hr
  have hb : ∀ ph last p start stop s r, Zmp.localBody c stance switch dT ph last p start stop s = .ok r → r.2.length = stop - start := by
    intro ph last p start stop s r hr
    cases p
    case swing => cases hr; simp
    case switchIn => cases hr; simp
    case stance =>
      obtain ⟨f, -, hr⟩ := Out.bind_eq_ok.mp hr
      cases hr; simp [Zmp.samples]
    case switchOut =>
      simp only [Zmp.localBody] at hr
      split at hr
      · cases hr; simp
      · obtain ⟨f, -, hr⟩ := Out.bind_eq_ok.mp hr
        split at hr
        · cases hr
        · cases hr; simp [Zmp.samples]; omega
  have : ∀ (shifts : List Nat) (ph start : Nat) (s : Unit) r, phaseLoop (Zmp.localBody c stance switch dT) phases shifts ph start s = .ok r →
      r.2.length + start = shifts.getLastD start := by
    intro shifts
    induction shifts with
    | nil => intro ph start s r hr; cases hr; simp
    | cons stop rest ih =>
      intro ph start s r hr
      simp only [phaseLoop] at hr
      split at hr
      · cases hr
      split at hr
      · cases hr
      split at hr
      · cases hr
      obtain ⟨a, ha, hr⟩ := Out.bind_eq_ok.mp hr
      obtain ⟨b, hb', hr⟩ := Out.bind_eq_ok.mp hr
      cases hr
      have h1 := hb _ _ _ _ _ _ _ ha
      have h2 := ih _ _ _ _ hb'
      rw [List.getLastD_cons, ← h2, List.length_append, h1]
      omega
  exact this _ _ _ _ _ hr

theorem backTo (steps : List (Step K)) (good good' : Step K → Bool) (h : ∀ s, good' (step s) = good s) (i : Nat) :
    Zmp.backTo (steps.map step) good' i = Zmp.backTo steps good i := by
  induction i with
  | zero =>
    simp only [Zmp.backTo, List.getElem?_map]
    cases steps[0]? with
    | none => rfl
    | some s => simp only [Option.map_some, h]
  | succ i ih =>
    simp only [Zmp.backTo, List.getElem?_map, ih]
    cases steps[i + 1]? with
    | none => rfl
    | some s => simp only [Option.map_some, h]

theorem stepAt (steps : List (Step K)) (nm : String) (t : K) (i : Nat) (s : Step K) :
    Zmp.stepAt (steps.map step) (name nm) t i (step s) = Zmp.stepAt steps nm t i s := by
  unfold Zmp.stepAt
  rw [backTo steps (fun s => decide (s.footName = nm ∧ ¬ t < s.impactTime))]
  · rfl
  · intro s; simp only [step_impactTime, step_footName, name_inj]

theorem stepsUsed (steps : List (Step K)) (nm : String) (time : Nat → K) : ∀ (n i : Nat),
    Zmp.stepsUsed (steps.map step) (name nm) time n i = (Zmp.stepsUsed steps nm time n i).map (List.map step)
  | 0, _ => by simp only [Zmp.stepsUsed, Out.map_ok, List.map_nil]
  | n + 1, i => by
    simp only [Zmp.stepsUsed, List.getElem?_map]
    cases steps[i]? with
    | none => rfl
    | some s =>
      simp only [Option.map_some, stepAt, Out.map_bind]
      refine Out.bind_congr fun j => ?_
      cases steps[j]? with
      | none => rfl
      | some s =>
        simp only [Option.map_some, stepsUsed, Out.bind_map, Out.map_bind]
        exact Out.bind_congr fun l => by simp

theorem toWorld (hp : TrigParity K) (s : Step K) (z : Vec2 K) : Zmp.toWorld (step s) (vector z) = vector (Zmp.toWorld s z) := by
  simp only [Zmp.toWorld, step_position, step_angle, rot_vector hp, vector_add]

theorem worldFrom (hp : TrigParity K) (ol or : Step K) (dT : K) (first : Nat) : ∀ (n : Nat) (zl zr : List (Motion2 K))
    (wl wr : List (Motion K)) (sl sr : List (Step K)), zr.length = zl.length →
    Out.Follows (fun l l' => l' = l.map zmp) (Zmp.worldFrom ol or dT first n zl zr wl wr sl sr)
      (Zmp.worldFrom (step or) (step ol) dT first n (zr.map motion2) (zl.map motion2) wr wl (sr.map step) (sl.map step))
  | _, [], zr, _, _, _, _, h => by
    rw [List.length_eq_zero_iff.mp h]
    simp only [Zmp.worldFrom, List.map_nil]
    exact Out.Follows.ok rfl
  | _, _ :: _, [], _, _, _, _, h => by simp at h
  | _, _ :: _, _ :: _, [], _, _, _, _ => by simp only [Zmp.worldFrom]; exact Out.Follows.ub
  | _, _ :: _, _ :: _, _ :: _, [], _, _, _ => by simp only [Zmp.worldFrom]; exact Out.Follows.ub
  | _, _ :: _, _ :: _, _ :: _, _ :: _, [], _, _ => by simp only [Zmp.worldFrom]; exact Out.Follows.ub
  | _, _ :: _, _ :: _, _ :: _, _ :: _, _ :: _, [], _ => by simp only [Zmp.worldFrom]; exact Out.Follows.ub
  | n, z :: zl, z' :: zr, w :: wl, w' :: wr, s :: sl, s' :: sr, h => by
    simp only [List.map_cons, Zmp.worldFrom]
    refine Out.Follows.bind (worldFrom hp ol or dT first (n + 1) zl zr wl wr sl sr (by simpa using h)) fun l l' _ hl => ?_
    refine Out.Follows.ok ?_
    simp only [List.map_cons, hl, List.cons.injEq, and_true]
    have e1 : ∀ m : Motion2 K, Zmp.mpos (motion2 m) = vector (Zmp.mpos m) := fun _ => rfl
    have e2 : ∀ m : Motion2 K, Zmp.mvel (motion2 m) = vector (Zmp.mvel m) := fun _ => rfl
    have e3 : ∀ m : Motion2 K, Zmp.macc (motion2 m) = vector (Zmp.macc m) := fun _ => rfl
    split_ifs
    · simp only [Zmp.worldFirst, e1, e2, e3, toWorld hp, zmp, ZmpSample.mk.injEq]
      refine ⟨?_, ?_, ?_⟩ <;> ext <;>
        simp only [vector, Vec2.add_x, Vec2.add_y, Vec2.sub_x, Vec2.sub_y, Vec2.smul_x, Vec2.smul_y] <;> ring
    · simp only [Zmp.worldAfter, e1, e2, e3, toWorld hp, zmp, ZmpSample.mk.injEq]
      refine ⟨?_, ?_, ?_⟩ <;> ext <;>
        simp only [vector, Vec2.add_x, Vec2.add_y, Vec2.sub_x, Vec2.sub_y, Vec2.smul_x, Vec2.smul_y] <;> ring

theorem world (hp : TrigParity K) (ol or : Step K) (initTime dT : K) (shifts : List Nat) (steps : List (Step K)) (ln rn : String)
    (zl zr : List (Motion2 K)) (wl wr : List (Motion K)) (hz : zr.length = zl.length) :
    Out.Follows (fun l l' => l' = l.map zmp) (Zmp.world ol or initTime dT shifts steps ln rn zl zr wl wr)
      (Zmp.world (step or) (step ol) initTime dT shifts (steps.map step) (name rn) (name ln) (zr.map motion2) (zl.map motion2)
        wr wl) := by
  unfold Zmp.world
  cases shifts[1]? with
  | none => exact Out.Follows.ub
  | some first =>
    simp only [List.map_eq_nil_iff, List.length_map, hz]
    split_ifs
    · exact Out.Follows.ub
    · have e : ∀ nm, Zmp.backTo (steps.map step) (fun s => decide (s.footName = name nm)) =
          Zmp.backTo steps (fun s => decide (s.footName = nm)) := fun nm =>
        funext fun i => backTo steps _ _ (fun s => by simp [name_inj]) i
      simp only [e]
      intro l hl
      obtain ⟨i, hi, hl⟩ := Out.bind_eq_ok.mp hl
      obtain ⟨j, hj, hl⟩ := Out.bind_eq_ok.mp hl
      obtain ⟨sl, hsl, hl⟩ := Out.bind_eq_ok.mp hl
      obtain ⟨sr, hsr, hl⟩ := Out.bind_eq_ok.mp hl
      simp only [hi, hj, Out.bind_ok, stepsUsed, hsl, hsr, Out.map_ok]
      exact worldFrom hp ol or dT first 0 zl zr wl wr sl sr hz l hl

end Spec.Mirror

namespace Spec
variable {K : Type} [Field K] [LinearOrder K] [IsStrictOrderedRing K] [FloorRing K] [Trig K]

theorem ZmpStateMirrored.new (hp : TrigParity K) {z z' : Zmp K} (h : ZmpStateMirrored z z') (cfg : GenSettings K) (initTime dT : K)
    (left right : FootPrint K) (ordered : List (Step K)) {t t' : Timing K} (ht : Mirror.Timings t t')
    (hc : t.right = t.left.map Mirror.phase) (hal : AlignedFrom t.left 0 t.shifts.tail) :
    Out.Follows (fun r r' => ZmpStateMirrored r.1 r'.1 ∧ ZmpOutMirrored r.2 r'.2)
      (z.computeNewTrajectories cfg initTime dT t.merges left right ordered t.left t.right t.shifts)
      (z'.computeNewTrajectories cfg initTime dT t'.merges (Mirror.footPrint right) (Mirror.footPrint left)
        (ordered.map Mirror.step) t'.left t'.right t'.shifts) := by
  unfold Zmp.computeNewTrajectories
  obtain ⟨h1, h2, h3, h4⟩ := h.offsets
  have hs : z'.start = Mirror.weight z.start := by
    unfold Zmp.start
    rw [h.initial.1]
    split_ifs with hi
    · exact h.initial.2 hi
    · simp [Mirror.weight]; norm_num
  have hpr : z'.previousSteps (Mirror.footPrint right) (Mirror.footPrint left) =
      (z.previousSteps left right).map fun q => (Mirror.step q.2, Mirror.step q.1) := by
    unfold Zmp.previousSteps
    rw [h.previous.1]
    split_ifs with hi
    · rw [(h.previous.2 hi).1, (h.previous.2 hi).2]; rfl
    · simp only [Mirror.footPrint_steps]
      rcases left.steps with _ | ⟨l, ls⟩ <;> rcases right.steps with _ | ⟨r, rs⟩ <;> rfl
  rw [hpr, Out.bind_map, hs, h1, h2, h3, h4, ht.merges]
  simp only [Mirror.footPrint_footName]
  refine Out.Follows.bind_same fun old _ => ?_
  refine Out.Follows.bind (Mirror.weights _ _ dT ht hc hal) fun wl wl' _ hwl => ?_
  subst hwl
  refine Out.Follows.bind (Mirror.recordStates _ wl 0 0 _ _ (Mirror.resizeStates _ h.states)) fun st st' _ hst => ?_
  intro r hr
  obtain ⟨zl, hzl, hr⟩ := Out.bind_eq_ok.mp hr
  obtain ⟨zr, hzr, hr⟩ := Out.bind_eq_ok.mp hr
  obtain ⟨w, hw, hr⟩ := Out.bind_eq_ok.mp hr
  cases hr
  have el := (Mirror.localZmp (ZmpTimes.of cfg) z.rightStance z.rightSwitch dT ht).1
  have er := (Mirror.localZmp (ZmpTimes.of cfg) z.leftStance z.leftSwitch dT ht).2
  rw [el, er, hzl, hzr]
  simp only [Out.map_ok, Out.bind_ok]
  have hm1 : wl.map Mirror.weight = Zmp.mirror wl := rfl
  have hm2 : Zmp.mirror (wl.map Mirror.weight) = wl := by
    simp only [Zmp.mirror, List.map_map]
    conv_rhs => rw [← List.map_id wl]
    exact List.map_congr_left fun m _ => by ext <;> simp [Mirror.weight]
  rw [hm2, hm1, ht.shifts]
  obtain ⟨w', hw', rfl⟩ := Mirror.world hp old.1 old.2 initTime dT t.shifts ordered left.footName right.footName zl zr wl
    (Zmp.mirror wl) (by rw [Mirror.localZmp_length hzl, Mirror.localZmp_length hzr]) w hw
  rw [hw']
  exact ⟨_, rfl, ⟨⟨rfl, rfl, rfl, rfl⟩, ⟨rfl, fun _ => rfl⟩, ⟨rfl, fun _ => ⟨rfl, rfl⟩⟩, hst⟩, ⟨rfl, rfl, rfl, rfl, rfl⟩⟩

end Spec
end Uni
