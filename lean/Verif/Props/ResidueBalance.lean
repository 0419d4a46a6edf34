import Verif.Lemmas.ResidueBalance
import Verif.Lemmas.DCMCall
import Verif.Spec.Residue

/-! # C108: what a ZMP or DCM generator that fails leaves in its vectors -/

set_option autoImplicit false
set_option linter.unusedSectionVars false

namespace Uni
open Spec Gen
variable {K : Type} [Field K] [LinearOrder K] [IsStrictOrderedRing K] [FloorRing K] [Trig K]

namespace Zmp

private theorem fills_weight (c : ZmpTimes K) (init : Motion K) (phases : List Phase) (dT : K) :
    Fills (weightBody c init phases dT) := fun k b p i j s a h => weightBody_length c init phases dT k b p i j s a.1 a.2 h

private theorem fills_local (c : ZmpTimes K) (a b : Vec2 K) (dT : K) : Fills (localBody c a b dT) :=
  fun k f p i j s r h => localBody_length c a b dT k f p i j s r.1 r.2 h

private theorem resizeStates_get {n i : Nat} (states : List (Motion K)) (hi : i < n) :
    (resizeStates states n)[i]? = some (states[i]?.getD ⟨0, 0, 0⟩) := by
  unfold resizeStates
  by_cases h : i < states.length
  · rw [List.getElem?_append_left (by rw [List.length_take]; omega), List.getElem?_take_of_lt hi, List.getElem?_eq_getElem h]
    rfl
  · rw [List.getElem?_append_right (by rw [List.length_take]; omega), List.getElem?_replicate,
      if_pos (by rw [List.length_take]; omega), List.getElem?_eq_none (by omega)]
    rfl

/-- C108 (ZMP, weights): a call fails here only in a double support without samples, or in a pause that the settings leave no
time to begin or to end.  What it leaves is a mixture: the weights of the new walk up to this double support, or up to its end
if the pause has been reached; after that the weights of the walk before.  The states at the merge points are a mixture in the
same way. -/
theorem C108_weights {c : ZmpTimes K} {init : Motion K} {dT : K} {phases : List Phase} {l : List Nat} (hd : 0 < dT)
    (h : weights c init dT phases (0 :: l) = .fail) (old : List (Motion K)) :
    ∃ (k a b m : Nat) (w : List (Motion K)), (0 :: l)[k]? = some a ∧ (0 :: l)[k + 1]? = some b ∧
      (phases[a]? = some .switchIn ∨ phases[a]? = some .switchOut) ∧
      (m = a ∧ b = a ∨ m = a ∧ c.pauses dT (b - a) = true ∧ c.endSwitch ≤ 0 ∨
        m = b ∧ c.pauses dT (b - a) = true ∧ stdRound (c.nominalSwitch / dT) ≤ 0) ∧
      (∃ r, phaseLoop (fun n _ => weightBody c init phases dT n false) phases (l.take k) 1 0 () = .ok r ∧ r.2.length = a ∧
        r.2 = w.take a) ∧ w.length = m ∧
      Mixed ⟨0, 0, 0⟩ phases.length m w old (weightsAfter c init dT phases (0 :: l) old) ∧
      ∀ (merges : List Nat) (states : List (Motion K)), merges ≠ [] → merges.Pairwise (· < ·) →
        ∃ st, statesAfter c init dT merges phases (0 :: l) states = .ok st ∧ st.length = merges.length ∧
          ∀ (i x : Nat), merges[i]? = some x → (x < m → st[i]? = w[x]?) ∧ (m ≤ x → st[i]? = some (states[i]?.getD (⟨0, 0, 0⟩ : Motion K))) := by
  have h' : phaseLoop (weightBody c init phases dT) phases l 1 0 () = .fail := by
    unfold weights at h
    cases hr : overPhases (weightBody c init phases dT) phases (0 :: l) () with
    | ok r => rw [hr] at h; cases h
    | ub w => rw [hr] at h; cases h
    | fail => exact hr
  obtain ⟨k, b, r, p, f, h1, h2, h3, h4, h5, h6, h7, -, h8⟩ :=
    phaseLoop_stops (weightWrites c init dT) (fills_weight c init phases dT) h'
  simp only [Nat.zero_add] at h2 h4 h5 h7 h8
  obtain ⟨hp, hw⟩ := weightBody_fail hd h7
  have hph : phases[r.2.length]? = some .switchIn ∨ phases[r.2.length]? = some .switchOut := by
    rcases hp with rfl | rfl
    · exact Or.inl h4
    · exact Or.inr h4
  have mix : (r.2 ++ weightWrites c init dT (1 + k) f p r.2.length b r.1).length ≤ phases.length →
      Mixed ⟨0, 0, 0⟩ phases.length (r.2 ++ weightWrites c init dT (1 + k) f p r.2.length b r.1).length
        (r.2 ++ weightWrites c init dT (1 + k) f p r.2.length b r.1) old (weightsAfter c init dT phases (0 :: l) old) := by
    intro hle
    unfold weightsAfter afterPhases
    change Mixed _ _ _ _ _ (overwrite (phaseWrites _ _ phases l 1 0 ()) _)
    rw [h8]
    exact mixed_overwrite _ _ old hle
  have sts : ∀ (merges : List Nat) (states : List (Motion K)), merges ≠ [] → merges.Pairwise (· < ·) →
      ∃ st, statesAfter c init dT merges phases (0 :: l) states = .ok st ∧ st.length = merges.length ∧
        ∀ (i x : Nat), merges[i]? = some x →
          (x < (r.2 ++ weightWrites c init dT (1 + k) f p r.2.length b r.1).length →
            st[i]? = (r.2 ++ weightWrites c init dT (1 + k) f p r.2.length b r.1)[x]?) ∧
          ((r.2 ++ weightWrites c init dT (1 + k) f p r.2.length b r.1).length ≤ x → st[i]? = some (states[i]?.getD (⟨0, 0, 0⟩ : Motion K))) := by
    intro merges states hne hm
    unfold statesAfter
    change ∃ st, recordStates merges (phaseWrites _ _ phases l 1 0 ()) _ _ _ = _ ∧ _
    rw [h8]
    have hpos : 0 < merges.length := List.length_pos_iff.mpr hne
    have hlen : (resizeStates states merges.length).length = merges.length := by
      unfold resizeStates
      simp only [List.length_append, List.length_take, List.length_replicate]
      omega
    obtain ⟨st, e1, e2, e3⟩ := recordStates_at hm (r.2 ++ weightWrites c init dT (1 + k) f p r.2.length b r.1) 0 0
      (resizeStates states merges.length) hlen hpos (Or.inl fun _ _ _ _ => Nat.zero_le _)
    refine ⟨st, e1, e2, fun i x hi => ⟨fun hx => ?_, fun hx => ?_⟩⟩
    · exact (e3 i x hi).1 (Nat.zero_le _) (Nat.zero_le _) (by rw [Nat.zero_add]; exact hx)
    · rw [(e3 i x hi).2 (Or.inr (Or.inr (by rw [Nat.zero_add]; exact hx)))]
      have hil : i < merges.length := (List.getElem?_eq_some_iff.mp hi).1
      exact resizeStates_get states hil
  have tk : (r.2 ++ weightWrites c init dT (1 + k) f p r.2.length b r.1).take r.2.length = r.2 := List.take_left
  rcases hw with ⟨e1, e2⟩ | ⟨e1, e2, e3⟩ | ⟨e1, e2, e3⟩
  · rw [e2, List.append_nil] at mix sts
    exact ⟨k, _, b, r.2.length, r.2, h2, by simpa using h1, hph, Or.inl ⟨rfl, by omega⟩,
      ⟨r, h3, rfl, (List.take_length).symm⟩, rfl, mix (by omega), sts⟩
  · rw [e3, List.append_nil] at mix sts
    exact ⟨k, _, b, r.2.length, r.2, h2, by simpa using h1, hph, Or.inr (Or.inl ⟨rfl, e1, e2⟩),
      ⟨r, h3, rfl, (List.take_length).symm⟩, rfl, mix (by omega), sts⟩
  · have hl : (r.2 ++ weightWrites c init dT (1 + k) f p r.2.length b r.1).length = b := by
      rw [List.length_append, e3]; omega
    rw [hl] at mix sts
    exact ⟨k, _, b, b, _, h2, by simpa using h1, hph, Or.inr (Or.inr ⟨rfl, e1, e2⟩), ⟨r, h3, rfl, tk.symm⟩, hl, mix h6, sts⟩

/-- C108 (ZMP in the frame of a foot): a call fails here only in a stance or in a switch out without samples, or if the settings
leave no time to begin a pause.  It leaves the new walk up to this phase and the walk before after that. -/
theorem C108_local {c : ZmpTimes K} {stance switch : Vec2 K} {dT : K} {phases : List Phase} {l : List Nat} (hd : 0 < dT)
    (h : localZmp c stance switch dT phases (0 :: l) = .fail) (g : Motion2 K) (old : List (Motion2 K)) :
    ∃ (k a b : Nat) (w : List (Motion2 K)), (0 :: l)[k]? = some a ∧ (0 :: l)[k + 1]? = some b ∧
      (phases[a]? = some .stance ∨ phases[a]? = some .switchOut ∧ k ≠ 0) ∧
      (b = a ∨ c.pauses dT (b - a) = true ∧ c.endSwitch ≤ 0) ∧
      (∃ r, phaseLoop (fun n _ => localBody c stance switch dT n false) phases (l.take k) 1 0 () = .ok r ∧ r.2 = w) ∧
      w.length = a ∧ Mixed g phases.length a w old (localAfter c stance switch dT phases (0 :: l) g old) := by
  have h' : phaseLoop (localBody c stance switch dT) phases l 1 0 () = .fail := by
    unfold localZmp at h
    cases hr : overPhases (localBody c stance switch dT) phases (0 :: l) () with
    | ok r => rw [hr] at h; cases h
    | ub w => rw [hr] at h; cases h
    | fail => exact hr
  obtain ⟨k, b, r, p, f, h1, h2, h3, h4, h5, h6, h7, -, h8⟩ :=
    phaseLoop_stops (fun _ _ _ _ _ _ => []) (fills_local c stance switch dT) h'
  simp only [Nat.zero_add, List.append_nil] at h2 h4 h5 h7 h8
  obtain ⟨hp, hw⟩ := localBody_fail hd h7
  refine ⟨k, _, b, r.2, h2, by simpa using h1, ?_, ?_, ⟨r, h3, rfl⟩, rfl, ?_⟩
  · rcases hp with rfl | ⟨rfl, hk⟩
    · exact Or.inl h4
    · exact Or.inr ⟨h4, by omega⟩
  · rcases hw with hw | hw
    · exact Or.inl (by omega)
    · exact Or.inr hw
  · unfold localAfter afterPhases
    change Mixed _ _ _ _ _ (overwrite (phaseWrites _ _ phases l 1 0 ()) _)
    rw [h8]
    exact mixed_overwrite _ _ old (by omega)

private theorem weights_after {c : ZmpTimes K} {init : Motion K} {dT : K} {phases : List Phase} {l : List Nat}
    {w : List (Motion K)} (he : (0 :: l).getLast (by simp) = phases.length) (h : weights c init dT phases (0 :: l) = .ok w)
    (old : List (Motion K)) : weightsAfter c init dT phases (0 :: l) old = w := by
  unfold weights at h
  rw [Out.bind_eq_ok] at h
  obtain ⟨r, hr, h⟩ := h
  cases h
  exact afterPhases_ok (fills_weight c init phases dT) he hr _ old

private theorem local_after {c : ZmpTimes K} {a b : Vec2 K} {dT : K} {phases : List Phase} {l : List Nat}
    {w : List (Motion2 K)} (he : (0 :: l).getLast (by simp) = phases.length) (h : localZmp c a b dT phases (0 :: l) = .ok w)
    (g : Motion2 K) (old : List (Motion2 K)) : localAfter c a b dT phases (0 :: l) g old = w := by
  unfold localZmp at h
  rw [Out.bind_eq_ok] at h
  obtain ⟨r, hr, h⟩ := h
  cases h
  exact afterPhases_ok (fills_local c a b dT) he hr _ old

private theorem bind_fail {α β : Type} {x : Out α} {f : α → Out β} (hx : x ≠ .fail) (hf : ∀ a, f a ≠ .fail) : (x >>= f) ≠ .fail := by
  cases x with
  | ok a => exact hf a
  | fail => exact absurd rfl hx
  | ub w => intro h; cases h

private theorem recordStates_fail (merges : List Nat) : ∀ (l : List (Motion K)) (i m : Nat) (st : List (Motion K)),
    recordStates merges l i m st ≠ .fail
  | [], _, _, _ => by simp [recordStates]
  | w :: ws, i, m, st => by
    unfold recordStates
    split
    · simp
    · split_ifs
      all_goals exact recordStates_fail merges ws _ _ _

private theorem backTo_fail (steps : List (Step K)) (good : Step K → Bool) : ∀ i, backTo steps good i ≠ .fail
  | 0 => by unfold backTo; split <;> [simp; (split_ifs <;> simp)]
  | i + 1 => by
    unfold backTo
    split
    · simp
    · split_ifs
      · simp
      · exact backTo_fail steps good i

private theorem stepsUsed_fail (steps : List (Step K)) (name : String) (time : Nat → K) :
    ∀ n i, stepsUsed steps name time n i ≠ .fail
  | 0, _ => by simp [stepsUsed]
  | n + 1, i => by
    unfold stepsUsed
    split
    · simp
    · refine bind_fail ?_ fun j => ?_
      · unfold stepAt
        split_ifs
        · exact backTo_fail _ _ _
        · simp
      · split
        · simp
        · exact bind_fail (stepsUsed_fail steps name time n _) fun _ => by simp

private theorem worldFrom_fail (ol or : Step K) (dT : K) (first : Nat) :
    ∀ (n : Nat) (zl zr : List (Motion2 K)) (wl wr : List (Motion K)) (sl sr : List (Step K)),
      worldFrom ol or dT first n zl zr wl wr sl sr ≠ .fail
  | _, [], _, _, _, _, _ => by simp [worldFrom]
  | n, _ :: zl, zr, wl, wr, sl, sr => by
    unfold worldFrom
    split
    · simp
    · exact bind_fail (worldFrom_fail ol or dT first _ _ _ _ _ _ _) fun _ => by simp
    · simp

private theorem world_fail (ol or : Step K) (initTime dT : K) (shifts : List Nat) (steps : List (Step K)) (ln rn : String)
    (zl zr : List (Motion2 K)) (wl wr : List (Motion K)) : world ol or initTime dT shifts steps ln rn zl zr wl wr ≠ .fail := by
  unfold world
  split
  · simp
  · split_ifs
    · simp
    · exact bind_fail (backTo_fail _ _ _) fun _ => bind_fail (backTo_fail _ _ _) fun _ => bind_fail (stepsUsed_fail _ _ _ _ _) fun _ =>
        bind_fail (stepsUsed_fail _ _ _ _ _) fun _ => worldFrom_fail _ _ _ _ _ _ _ _ _ _ _

/-- C108 (ZMP): a call that fails has not touched the ZMP in the world.  The vectors are written one after the other, so
those before the one in which it stops (C108_weights, C108_local) are new, those after it are still those of the walk before. -/
theorem C108_zmp {z : Zmp K} {cfg : GenSettings K} {initTime dT : K} {merges : List Nat} {left right : FootPrint K}
    {ordered : List (Step K)} {lp rp : List Phase} {l : List Nat} (he : (0 :: l).getLast (by simp) = lp.length)
    (h : z.computeNewTrajectories cfg initTime dT merges left right ordered lp rp (0 :: l) = .fail) (g : Motion2 K)
    (old : ZmpOut K) :
    let c := ZmpTimes.of cfg
    let v := z.after cfg initTime dT left right ordered lp rp (0 :: l) g old
    v.world = old.world ∧
    ((weights c z.start dT lp (0 :: l) = .fail ∧ v = { old with weightL := weightsAfter c z.start dT lp (0 :: l) old.weightL }) ∨
     (∃ wl, weights c z.start dT lp (0 :: l) = .ok wl ∧ localZmp c z.leftStance z.leftSwitch dT lp (0 :: l) = .fail ∧
        v = { old with weightL := wl, weightR := mirror wl,
                       localL := localAfter c z.leftStance z.leftSwitch dT lp (0 :: l) g old.localL }) ∨
     ∃ wl zl, weights c z.start dT lp (0 :: l) = .ok wl ∧ localZmp c z.leftStance z.leftSwitch dT lp (0 :: l) = .ok zl ∧
        localZmp c z.rightStance z.rightSwitch dT rp (0 :: l) = .fail ∧
        v = ⟨wl, mirror wl, zl, localAfter c z.rightStance z.rightSwitch dT rp (0 :: l) g old.localR, old.world⟩) := by
  intro c v
  have hs : (weights c z.start dT lp (0 :: l) = .fail ∧
        v = { old with weightL := weightsAfter c z.start dT lp (0 :: l) old.weightL }) ∨
     (∃ wl, weights c z.start dT lp (0 :: l) = .ok wl ∧ localZmp c z.leftStance z.leftSwitch dT lp (0 :: l) = .fail ∧
        v = { old with weightL := wl, weightR := mirror wl,
                       localL := localAfter c z.leftStance z.leftSwitch dT lp (0 :: l) g old.localL }) ∨
     ∃ wl zl, weights c z.start dT lp (0 :: l) = .ok wl ∧ localZmp c z.leftStance z.leftSwitch dT lp (0 :: l) = .ok zl ∧
        localZmp c z.rightStance z.rightSwitch dT rp (0 :: l) = .fail ∧
        v = ⟨wl, mirror wl, zl, localAfter c z.rightStance z.rightSwitch dT rp (0 :: l) g old.localR, old.world⟩ := by
    unfold computeNewTrajectories at h
    simp only at h
    have hv : v = z.after cfg initTime dT left right ordered lp rp (0 :: l) g old := rfl
    unfold after at hv
    simp only at hv
    cases hp : z.previousSteps left right with
    | fail =>
      exfalso
      unfold previousSteps at hp
      split_ifs at hp
      split at hp <;> cases hp
    | ub w => rw [hp] at h; cases h
    | ok prev =>
      rw [hp] at h
      simp only [Out.bind_ok] at h
      change (weights c z.start dT lp (0 :: l) >>= _) = _ at h
      change v = match weights c z.start dT lp (0 :: l) with
        | .ok wl => _
        | _ => _ at hv
      cases hw : weights c z.start dT lp (0 :: l) with
      | ub w => rw [hw] at h; cases h
      | fail => rw [hw] at hv; exact Or.inl ⟨rfl, hv⟩
      | ok wl =>
        right
        rw [hw] at h hv
        simp only [Out.bind_ok] at h hv
        have hwa := weights_after he hw old.weightL
        cases hr : recordStates merges wl 0 0 (resizeStates z.initStates merges.length) with
        | ub w => rw [hr] at h; cases h
        | fail => exact absurd hr (recordStates_fail _ _ _ _ _)
        | ok st =>
          rw [hr] at h
          simp only [Out.bind_ok] at h
          cases hl : localZmp c z.leftStance z.leftSwitch dT lp (0 :: l) with
          | ub w => rw [hl] at h; cases h
          | fail =>
            rw [hl] at hv
            refine Or.inl ⟨wl, rfl, rfl, hv.trans ?_⟩
            simp only [c] at hwa
            simp only [hwa, c]
          | ok zl =>
            right
            have hla := local_after he hl g old.localL
            rw [hl] at h hv
            simp only [Out.bind_ok] at h hv
            cases hr : localZmp c z.rightStance z.rightSwitch dT rp (0 :: l) with
            | ub w => rw [hr] at h; cases h
            | fail =>
              rw [hr] at hv
              refine ⟨wl, zl, rfl, rfl, rfl, hv.trans ?_⟩
              simp only [c] at hwa hla
              simp only [hwa, hla, c]
            | ok zr =>
              exfalso
              rw [hr] at h
              simp only [Out.bind_ok] at h
              exact bind_fail (world_fail _ _ _ _ _ _ _ _ _ _ _ _) (fun _ => by simp) h
  refine ⟨?_, hs⟩
  rcases hs with ⟨-, e⟩ | ⟨_, -, -, e⟩ | ⟨_, _, -, -, -, e⟩ <;> rw [e]

/-- C108 (ZMP, success): nothing of the walk before is left. -/
theorem C108_zmp_done {z z' : Zmp K} {cfg : GenSettings K} {initTime dT : K} {merges : List Nat} {left right : FootPrint K}
    {ordered : List (Step K)} {lp rp : List Phase} {l : List Nat} {o : ZmpOut K}
    (hl : (0 :: l).getLast (by simp) = lp.length) (hr : (0 :: l).getLast (by simp) = rp.length)
    (h : z.computeNewTrajectories cfg initTime dT merges left right ordered lp rp (0 :: l) = .ok (z', o)) (g : Motion2 K)
    (old : ZmpOut K) : z.after cfg initTime dT left right ordered lp rp (0 :: l) g old = o := by
  unfold computeNewTrajectories at h
  simp only [Out.bind_eq_ok] at h
  obtain ⟨p, hp, wl, hw, _, -, zl, hzl, zr, hzr, w, hwo, h⟩ := h
  cases h
  unfold after
  simp only [hw, hzl, hzr, hp, hwo, weights_after hl hw, local_after hl hzl, local_after hr hzr]

end Zmp

namespace Dcm

/-- A call is refused and touches nothing, or it is `generateDCMTrajectory`. -/
private theorem after_cases (d : Dcm K) (cfg : GenSettings K) (initTime dT : K) (ordered : List (Step K)) (shifts : List Nat)
    (lp : List Phase) (left right : FootPrint K) (old : DcmOut K) :
    (d.after cfg initTime dT ordered shifts lp left right old = old ∧
      ∀ d' o, d.computeNewTrajectories cfg initTime dT ordered shifts lp left right ≠ .ok (true, d', some o)) ∨
    ∃ l r init, left.steps.head? = some l ∧ right.steps.head? = some r ∧ d.start l r = some init ∧
      d.after cfg initTime dT ordered shifts lp left right old =
        (d.ready cfg dT init).generateAfter ordered lp left.steps right.steps init shifts old ∧
      d.computeNewTrajectories cfg initTime dT ordered shifts lp left right =
        match (d.ready cfg dT init).generate ordered lp left.steps right.steps init shifts with
        | .ok o => .ok (true, { d.ready cfg dT init with specified := false }, some o)
        | .fail => .ok (false, d.ready cfg dT init, none)
        | .ub w => .ub w := by
  unfold after computeNewTrajectories
  cases hl : left.steps with
  | nil =>
    left
    cases hd : d.setInitial [] right.steps with
    | ok d1 => exact ⟨rfl, fun _ _ h => by cases h⟩
    | fail => exact ⟨rfl, fun _ _ h => by cases h⟩
    | ub w => exact ⟨rfl, fun _ _ h => by cases h⟩
  | cons l ls =>
    cases hr : right.steps with
    | nil =>
      left
      cases hd : d.setInitial (l :: ls) [] with
      | ok d1 => exact ⟨rfl, fun _ _ h => by cases h⟩
      | fail => exact ⟨rfl, fun _ _ h => by cases h⟩
      | ub w => exact ⟨rfl, fun _ _ h => by cases h⟩
    | cons r rs =>
      have hi : d.setInitial (l :: ls) (r :: rs) = .ok { d with initial := d.start l r } := by
        unfold setInitial start
        by_cases hsp : d.specified = true
        · rw [if_pos hsp, if_pos hsp]
        · rw [if_neg hsp, if_neg hsp]
      rw [hi]
      simp only [Out.bind_ok]
      by_cases c1 : dT ≤ 0
      · left; rw [if_pos c1, if_pos c1]; exact ⟨rfl, fun _ _ h => by cases h⟩
      rw [if_neg c1, if_neg c1]
      by_cases c2 : initTime < max l.impactTime r.impactTime
      · left; rw [if_pos c2, if_pos c2]; exact ⟨rfl, fun _ _ h => by cases h⟩
      rw [if_neg c2, if_neg c2]
      by_cases c3 : cfg.switchPercentage * cfg.maxStepTime < 0
      · left
        have e : ∀ x : Dcm K, ∃ y, x.setPauseConditions cfg.pauseActive (cfg.switchPercentage * cfg.maxStepTime)
            (cfg.switchPercentage * cfg.nominalStepTime) cfg.endSwitch = (false, y) := fun x =>
          ⟨_, by unfold setPauseConditions; rw [if_pos c3]⟩
        obtain ⟨y, e⟩ := e { d with initial := d.start l r, dT := dT }
        rw [e]
        exact ⟨rfl, fun _ _ h => by cases h⟩
      by_cases c4 : cfg.pauseActive = true ∧ (cfg.switchPercentage * cfg.nominalStepTime ≤ 0 ∨ cfg.endSwitch < 0)
      · left
        have e : ∀ x : Dcm K, ∃ y, x.setPauseConditions cfg.pauseActive (cfg.switchPercentage * cfg.maxStepTime)
            (cfg.switchPercentage * cfg.nominalStepTime) cfg.endSwitch = (false, y) := fun x =>
          ⟨_, by unfold setPauseConditions; rw [if_neg c3]; simp only; rw [if_pos c4]⟩
        obtain ⟨y, e⟩ := e { d with initial := d.start l r, dT := dT }
        rw [e]
        exact ⟨rfl, fun _ _ h => by cases h⟩
      have e : ({ d with initial := d.start l r, dT := dT } : Dcm K).setPauseConditions cfg.pauseActive
          (cfg.switchPercentage * cfg.maxStepTime) (cfg.switchPercentage * cfg.nominalStepTime) cfg.endSwitch =
          (true, { d with
            initial := d.start l r, dT := dT, pauseActive := cfg.pauseActive, maxSwitch := cfg.switchPercentage * cfg.maxStepTime
            nominalSwitch := cfg.switchPercentage * cfg.nominalStepTime, endSwitch := cfg.endSwitch }) := by
        unfold setPauseConditions
        rw [if_neg c3]
        simp only
        rw [if_neg c4]
      rw [e]
      simp only
      cases hst : d.start l r with
      | none => left; exact ⟨rfl, fun _ _ h => by cases h⟩
      | some init =>
        right
        refine ⟨l, r, init, rfl, rfl, hst, rfl, ?_⟩
        rfl

private theorem fills_dcm (d : Dcm K) (zmps : List (Vec2 K)) : Fills (d.weightBody zmps) :=
  fun k b p i j s a h => weightBody_length d zmps k b p i j s a.1 a.2 h

private theorem evaluate_after (d : Dcm K) (n t : Nat) (tr : List (Piece K)) :
    d.evaluate (d.evaluateAfter n t tr).length t tr = .ok (d.evaluateAfter n t tr) ∧
      (∀ l, d.evaluate n t tr = .ok l → d.evaluateAfter n t tr = l) ∧
      (d.evaluate n t tr = .fail → (d.evaluateAfter n t tr).length < n) := by
  induction n generalizing t tr with
  | zero =>
    simp only [evaluateAfter, evaluate, List.length_nil]
    exact ⟨trivial, fun l h => by cases h; rfl, fun h => by cases h⟩
  | succ n ih =>
    cases tr with
    | nil =>
      simp only [evaluateAfter, evaluate, List.length_nil]
      exact ⟨trivial, fun l h => (by cases h), fun h => by cases h⟩
    | cons p ps =>
      cases hq : (if p.stop < (t : K) * d.dT then ps else p :: ps) with
      | nil =>
        simp only [evaluateAfter, evaluate, hq, List.length_nil]
        exact ⟨trivial, fun l h => (by cases h), fun h => by cases h⟩
      | cons q qs =>
        obtain ⟨i1, i2, i3⟩ := ih (t + 1) (q :: qs)
        cases hs : q.sample d.omega ((t : K) * d.dT) (d.dT / 2) with
        | fail =>
          simp only [evaluateAfter, evaluate, hq, hs, List.length_nil]
          exact ⟨trivial, fun l h => (by cases h), fun _ => by omega⟩
        | ub w =>
          simp only [evaluateAfter, evaluate, hq, hs, List.length_nil]
          exact ⟨trivial, fun l h => (by cases h), fun h => by cases h⟩
        | ok x =>
          simp only [evaluateAfter, evaluate, hq, hs, List.length_cons, Out.bind_ok, i1]
          refine ⟨trivial, fun l h => ?_, fun h => ?_⟩
          · rw [Out.bind_eq_ok] at h
            obtain ⟨m, hm, h⟩ := h
            cases h
            rw [i2 m hm]
          · cases he : d.evaluate n (t + 1) (q :: qs) with
            | ok m => rw [he] at h; cases h
            | ub w => rw [he] at h; cases h
            | fail => have := i3 he; omega

private theorem subSize_inv {a b n : Nat} (h : subSize a b = .ok n) : n = a - b := by
  unfold subSize at h
  split_ifs at h
  cases h
  rfl

/-- C108 (DCM, weights): a call fails here only in a single support after which a step of the foot that swings is missing.
What it leaves is a mixture: the weights of the new walk up to the end of this phase, after that those of the walk before. -/
theorem C108_dcm_weights {d : Dcm K} {phases : List Phase} {l : List Nat} {left right : List (Step K)} {zmps : List (Vec2 K)}
    (h : d.feetWeights phases (0 :: l) left right zmps = .fail) (hz : zmps.length = phases.length) (old : List (K × K)) :
    ∃ (k a b : Nat) (w : List (K × K)), (0 :: l)[k]? = some a ∧ (0 :: l)[k + 1]? = some b ∧
      (∃ r, phaseLoop (d.weightBody zmps) phases (l.take k) 1 0 (left, right) = .ok r ∧ r.2 = w.take a ∧
        (phases[a]? = some .stance ∧ r.1.2.length = 1 ∨ phases[a]? = some .swing ∧ r.1.1.length = 1)) ∧
      w.length = b ∧ (∀ j, a ≤ j → j < b → w[j]? = some (if phases[a]? = some .stance then (1, 0) else (0, 1))) ∧
      Mixed (0, 0) phases.length b w old (d.weightsAfter phases (0 :: l) left right zmps old) := by
  have h' : phaseLoop (d.weightBody zmps) phases l 1 0 (left, right) = .fail := by
    unfold feetWeights at h
    cases hr : overPhases (d.weightBody zmps) phases (0 :: l) (left, right) with
    | ok r => rw [hr] at h; cases h
    | ub w => rw [hr] at h; cases h
    | fail => exact hr
  obtain ⟨k, b, r, p, f, h1, h2, h3, h4, h5, h6, h7, -, h8⟩ := phaseLoop_stops weightWrites (fills_dcm d zmps) h'
  simp only [Nat.zero_add] at h2 h4 h5 h7 h8
  have hp : p = .stance ∧ r.1.2.length = 1 ∨ p = .swing ∧ r.1.1.length = 1 := by
    unfold weightBody at h7
    cases p with
    | stance =>
      simp only at h7
      split at h7
      · cases h7
      · rename_i e; exact Or.inl ⟨rfl, by rw [e]; rfl⟩
      · cases h7
    | swing =>
      simp only at h7
      split at h7
      · cases h7
      · rename_i e; exact Or.inr ⟨rfl, by rw [e]; rfl⟩
      · cases h7
    | switchIn =>
      exfalso
      simp only at h7
      split at h7
      · split_ifs at h7
      · cases h7
    | switchOut =>
      exfalso
      simp only at h7
      split at h7
      · split_ifs at h7
      · cases h7
  have hl : (r.2 ++ weightWrites (1 + k) f p r.2.length b r.1 : List (K × K)).length = b := by
    rw [List.length_append, weightWrites, List.length_replicate]; omega
  refine ⟨k, _, b, r.2 ++ weightWrites (1 + k) f p r.2.length b r.1, h2, by simpa using h1,
    ⟨r, h3, List.take_left.symm, ?_⟩, hl, ?_, ?_⟩
  · rcases hp with ⟨rfl, e⟩ | ⟨rfl, e⟩
    · exact Or.inl ⟨h4, e⟩
    · exact Or.inr ⟨h4, e⟩
  · intro j hj hb
    rw [List.getElem?_append_right hj, weightWrites, List.getElem?_replicate, if_pos (by omega), h4]
    rcases hp with ⟨rfl, -⟩ | ⟨rfl, -⟩ <;> rfl
  · unfold weightsAfter
    change Mixed _ _ _ _ _ (overwrite (phaseWrites _ _ phases l 1 0 (left, right)) _)
    have := mixed_overwrite (0, 0) (phaseWrites (d.weightBody zmps) weightWrites phases l 1 0 (left, right)) old
      (n := phases.length) (by rw [h8, hl]; exact h6)
    rw [h8, hl] at this
    rw [h8, hz]
    exact this

/-- C108 (DCM): the pieces, the samples and the weights are written one after the other.  A call that fails has touched
nothing (it was refused), or only the pieces, or the pieces and the first samples, or all but the last weights. -/
theorem C108_dcm {d d' : Dcm K} {cfg : GenSettings K} {initTime dT : K} {ordered : List (Step K)} {shifts : List Nat}
    {lp : List Phase} {left right : FootPrint K} {x : Option (DcmOut K)}
    (h : d.computeNewTrajectories cfg initTime dT ordered shifts lp left right = .ok (false, d', x)) (old : DcmOut K) :
    let v := d.after cfg initTime dT ordered shifts lp left right old
    v = old ∨ ∃ init,
      (d'.pieces ordered lp init shifts = .fail ∧ v.samples = old.samples ∧ v.weights = old.weights) ∨
      ∃ tr, d'.pieces ordered lp init shifts = .ok tr ∧ v.pieces = tr ∧
        d'.evaluate v.samples.length (shifts.headD 0) tr = .ok v.samples ∧
        (v.samples.length < shifts.getLastD 0 - shifts.headD 0 ∧ v.weights = old.weights ∨
         v.samples.length = shifts.getLastD 0 - shifts.headD 0 ∧
         d'.feetWeights lp shifts left.steps right.steps (v.samples.map DcmSample.zmp) = .fail ∧
         v.weights = d'.weightsAfter lp shifts left.steps right.steps (v.samples.map DcmSample.zmp) old.weights) := by
  intro v
  have hv : v = d.after cfg initTime dT ordered shifts lp left right old := rfl
  rcases after_cases d cfg initTime dT ordered shifts lp left right old with ⟨e, -⟩ | ⟨l, r, init, -, -, -, e, ec⟩
  · exact Or.inl (hv.trans e)
  · rw [ec] at h
    cases hg : (d.ready cfg dT init).generate ordered lp left.steps right.steps init shifts with
    | ok o => rw [hg] at h; cases h
    | ub w => rw [hg] at h; cases h
    | fail =>
      rw [hg] at h
      cases h
      by_cases ho : ordered.length < 2
      · left
        rw [hv, e, generateAfter, if_pos ho]
      right
      refine ⟨init, ?_⟩
      rw [generateAfter, if_neg ho] at e
      simp only at e
      unfold generate at hg
      cases hp : (d.ready cfg dT init).pieces ordered lp init shifts with
      | ub w => rw [hp] at hg; cases hg
      | fail =>
        rw [hp] at e
        rw [hv, e]
        exact Or.inl ⟨rfl, rfl, rfl⟩
      | ok tr =>
        right
        refine ⟨tr, rfl, ?_⟩
        have hpa : (d.ready cfg dT init).piecesAfter ordered lp init shifts = tr := by unfold piecesAfter; rw [hp]
        rw [hp] at e hg
        simp only [Out.bind_ok] at e hg
        cases hn : subSize (shifts.getLastD 0) (shifts.headD 0) with
        | ub w => rw [hn] at hg; cases hg
        | fail => unfold subSize at hn; split_ifs at hn
        | ok n =>
          rw [hn] at hg
          simp only [Out.bind_ok] at hg
          obtain rfl := subSize_inv hn
          obtain ⟨a1, a2, a3⟩ := evaluate_after (d.ready cfg dT init) (shifts.getLastD 0 - shifts.headD 0) (shifts.headD 0) tr
          cases hs : (d.ready cfg dT init).evaluate (shifts.getLastD 0 - shifts.headD 0) (shifts.headD 0) tr with
          | ub w => rw [hs] at hg; cases hg
          | fail =>
            rw [hs] at e
            rw [hv, e]
            exact ⟨hpa, a1, Or.inl ⟨a3 hs, rfl⟩⟩
          | ok lst =>
            have hl := a2 lst hs
            have hlen := (evaluate_inv hs).1
            rw [hs] at e hg
            simp only [Out.bind_ok] at e hg
            have hf : (d.ready cfg dT init).feetWeights lp shifts left.steps right.steps (lst.map DcmSample.zmp) = .fail := by
              cases hw : (d.ready cfg dT init).feetWeights lp shifts left.steps right.steps (lst.map DcmSample.zmp) with
              | fail => rfl
              | ok w => rw [hw] at hg; cases hg
              | ub w => rw [hw] at hg; cases hg
            rw [hv, e]
            rw [hl] at a1 ⊢
            exact ⟨hpa, a1, Or.inr ⟨hlen, hf, rfl⟩⟩

/-- C108 (DCM, success): nothing of the walk before is left. -/
theorem C108_dcm_done {d d' : Dcm K} {cfg : GenSettings K} {initTime dT : K} {ordered : List (Step K)} {l : List Nat}
    {lp : List Phase} {left right : FootPrint K} {o : DcmOut K} (hne : 2 ≤ ordered.length)
    (hl : (0 :: l).getLast (by simp) = lp.length)
    (h : d.computeNewTrajectories cfg initTime dT ordered (0 :: l) lp left right = .ok (true, d', some o)) (old : DcmOut K) :
    d.after cfg initTime dT ordered (0 :: l) lp left right old = o := by
  rcases after_cases d cfg initTime dT ordered (0 :: l) lp left right old with ⟨-, e⟩ | ⟨a, b, init, -, -, -, e, ec⟩
  · exact absurd h (e _ _)
  · rw [ec] at h
    cases hg : (d.ready cfg dT init).generate ordered lp left.steps right.steps init (0 :: l) with
    | fail => rw [hg] at h; cases h
    | ub w => rw [hg] at h; cases h
    | ok x =>
      rw [hg] at h
      cases h
      rw [e, generateAfter, if_neg (by omega)]
      unfold generate at hg
      simp only [Out.bind_eq_ok] at hg
      obtain ⟨tr, hp, n, hn, lst, hs, w, hw, hg⟩ := hg
      cases hg
      obtain rfl := subSize_inv hn
      have hpa : (d.ready cfg dT init).piecesAfter ordered lp init (0 :: l) = tr := by unfold piecesAfter; rw [hp]
      have hev := (evaluate_after (d.ready cfg dT init) _ _ tr).2.1 lst hs
      have hlen := (evaluate_inv hs).1
      have hlast : (0 :: l).getLastD 0 - (0 :: l).headD 0 = lp.length := by
        rw [← hl, List.getLastD_eq_getLast?, List.getLast?_eq_some_getLast (by simp)]
        rfl
      have hwa : (d.ready cfg dT init).weightsAfter lp (0 :: l) left.steps right.steps (lst.map DcmSample.zmp) old.weights = w := by
        unfold feetWeights at hw
        rw [Out.bind_eq_ok] at hw
        obtain ⟨q, hq, hw⟩ := hw
        cases hw
        have := afterPhases_ok (part := weightWrites) (fills_dcm _ _) hl hq (0, 0) old.weights
        unfold afterPhases at this
        unfold weightsAfter
        rw [List.length_map, hlen, hlast]
        exact this
      simp only [hp, hs, hpa, hev, hwa]

private theorem after_eq {cfg : GenSettings K} {left right : FootPrint K} {initTime dT : K} {d : Dcm K} {steps : List (Step K)}
    {shifts : List Nat} {lp : List Phase} (hv : ValidTimings cfg) (hd : 0 < dT) {l r : Step K} (hl : left.steps.head? = some l)
    (hr : right.steps.head? = some r) (h1 : l.impactTime ≤ initTime) (h2 : r.impactTime ≤ initTime) {init : Vec2 K × Vec2 K}
    (hi : d.start l r = some init) (old : DcmOut K) :
    d.after cfg initTime dT steps shifts lp left right old =
      (d.ready cfg dT init).generateAfter steps lp left.steps right.steps init shifts old := by
  cases hls : left.steps with
  | nil => rw [hls] at hl; simp at hl
  | cons l' ls =>
    cases hrs : right.steps with
    | nil => rw [hrs] at hr; simp at hr
    | cons r' rs =>
      rw [hls] at hl; rw [hrs] at hr
      simp only [List.head?_cons, Option.some.injEq] at hl hr
      subst hl hr
      have e : d.setInitial left.steps right.steps = .ok { d with initial := some init } := by
        unfold setInitial
        unfold start at hi
        by_cases hsp : d.specified = true
        · rw [if_pos hsp] at hi ⊢; rw [← hi]
        · rw [if_neg hsp] at hi ⊢; rw [hls, hrs]; simp only; rw [hi]
      unfold after
      rw [e]
      simp only [hls, hrs]
      rw [if_neg (not_le.mpr hd), if_neg (not_lt.mpr (max_le h1 h2))]
      have hpc : ({ d with initial := some init, dT := dT } : Dcm K).setPauseConditions cfg.pauseActive
          (cfg.switchPercentage * cfg.maxStepTime) (cfg.switchPercentage * cfg.nominalStepTime) cfg.endSwitch =
          (true, d.ready cfg dT init) := by
        unfold setPauseConditions
        have hm : 0 < cfg.maxStepTime := hv.nominal_pos.trans_le hv.nominal_le
        rw [if_neg (not_lt.mpr (mul_pos hv.switch_pos hm).le)]
        simp only
        rw [if_neg]
        · rfl
        · rintro ⟨-, h | h⟩
          · exact absurd h (not_le.mpr (mul_pos hv.switch_pos hv.nominal_pos))
          · exact absurd h (not_lt.mpr hv.end_pos.le)
      rw [hpc]
      rfl

/-- C108 (DCM, a walk): on a timeline of `UnicycleGenerator` a call fails only while it takes the samples: then the pieces are
those of the new walk, there are fewer samples than the walk has, and the weights are those of the walk before. -/
theorem C108_dcm_walk {cfg : GenSettings K} {left right : FootPrint K} {initTime dT : K} {sorted ordered : List (Ptr K)}
    {t : Timing K} {d d' : Dcm K} {x : Option (DcmOut K)} (hexp : Trig.exp (0 : K) = 1)
    (hw : Walk cfg left right initTime dT sorted ordered t) (hv : ValidDcm d) (hi : d.specified = true → d.initial ≠ none)
    (h : d.computeNewTrajectories cfg initTime dT (ordered.map Ptr.step) t.shifts t.left left right = .ok (false, d', x))
    (old : DcmOut K) :
    let v := d.after cfg initTime dT (ordered.map Ptr.step) t.shifts t.left left right old
    (∃ init, d'.pieces (ordered.map Ptr.step) t.left init t.shifts = .ok v.pieces) ∧
    d'.evaluate v.samples.length 0 v.pieces = .ok v.samples ∧ v.samples.length < t.left.length ∧ v.weights = old.weights := by
  intro v
  have hvd : v = d.after cfg initTime dT (ordered.map Ptr.step) t.shifts t.left left right old := rfl
  obtain ⟨l, r, tt, hr⟩ := timeline_ok hw.made
  obtain ⟨x, y, u, w, p, he⟩ := ends_ok (d := d) hw hr
  obtain ⟨init, hst⟩ : ∃ init, d.start l r = some init := by
    unfold start
    split_ifs with hc
    · exact Option.ne_none_iff_exists'.mp (hi hc)
    · exact ⟨_, rfl⟩
  obtain ⟨tr, t1, t2⟩ := pieces_whole (d := d) hexp hw.valid hw.sort hw.made hw.phases hw.names hv.still_nonneg hv.still_lt init hr
    he.ex he.ey he.eu he.ev he.hp (R := Roomy cfg d.stillness dT tt.rest) id
  obtain ⟨g1, g2⟩ := head_last hw
  have hgen := generate_of (ls := left.steps) (rs := right.steps) t1 g1 g2
  have hc := compute_eq (d := d) (steps := ordered.map Ptr.step) (shifts := t.shifts) (lp := t.left)
    hw.valid hr.dT_pos hr.headL hr.headR hr.init_l hr.init_r hst
  have ha := after_eq (d := d) (steps := ordered.map Ptr.step) (shifts := t.shifts) (lp := t.left)
    hw.valid hr.dT_pos hr.headL hr.headR hr.init_l hr.init_r hst old
  have hlen : ¬ (ordered.map Ptr.step).length < 2 := by
    have := slots_length hw.sort hr
    rw [List.length_map]
    omega
  rw [hc, hgen] at h
  rw [generateAfter, if_neg hlen] at ha
  simp only [t1, g1, g2, Nat.sub_zero] at ha
  obtain ⟨a1, a2, a3⟩ := evaluate_after (d.ready cfg dT init) t.left.length 0 tr
  have hpa : (d.ready cfg dT init).piecesAfter (ordered.map Ptr.step) t.left init t.shifts = tr := by unfold piecesAfter; rw [t1]
  cases hs : (d.ready cfg dT init).evaluate t.left.length 0 tr with
  | ub w => rw [hs] at h; cases h
  | ok lst =>
    obtain ⟨w, w1, -⟩ := weights_of hw hr (d.ready cfg dT init) (zmps := lst.map DcmSample.zmp)
      (by rw [List.length_map, (evaluate_inv hs).1])
    rw [hs, Out.bind_ok, w1] at h
    cases h
  | fail =>
    rw [hs] at h ha
    cases h
    rw [hvd, ha]
    simp only [hpa]
    exact ⟨⟨init, t1⟩, a1, a3 hs, trivial⟩

end Dcm

/-! ## Examples and witnesses -/

private local instance residueTrig : Trig ℚ := ⟨fun _ => 1, fun _ => 0, fun x => x, fun x => 1 + x, fun x => x, fun x _ => x, 3⟩

private def st (x t : ℚ) (n : String) : Step ℚ := ⟨⟨x, 0⟩, 0, t, n⟩
private def l1 : FootPrint ℚ := ⟨[st 0 0 "left", st 1 4 "left"], "left"⟩
private def r1 : FootPrint ℚ := ⟨[st 0 0 "right", st 2 8 "right"], "right"⟩
private def s1 : List (Ptr ℚ) := [⟨true, 0, st 0 0 "left"⟩, ⟨false, 0, st 0 0 "right"⟩, ⟨true, 1, st 1 4 "left"⟩, ⟨false, 1, st 2 8 "right"⟩]
private def gen : Dcm ℚ := { (Dcm.new : Dcm ℚ) with omega := 2, stillness := 1 / 2 }
private def set : GenSettings ℚ := { (GenSettings.new : GenSettings ℚ) with endSwitch := 2 }

private def tl (l r : FootPrint ℚ) (s : List (Ptr ℚ)) : List (Ptr ℚ) × Timing ℚ :=
  match timeline set l r 0 1 s with
  | .ok x => x
  | _ => ([], ⟨[], [], [], [], 0, 0, 0, true, true⟩)

private theorem walk1 : Dcm.Walk set l1 r1 0 1 s1 (tl l1 r1 s1).1 (tl l1 r1 s1).2 :=
  ⟨⟨by decide +kernel, by decide +kernel, by decide +kernel, by decide +kernel, by decide +kernel, by decide +kernel,
    by decide +kernel, by decide +kernel⟩, by unfold SortedPtrs; decide +kernel, by decide +kernel, by decide +kernel, rfl, rfl,
    by unfold Named; decide +kernel, by unfold Named; decide +kernel⟩

private def six : List Phase := [.switchOut, .switchOut, .stance, .stance, .switchIn, .switchIn]
private def times : ZmpTimes ℚ := ⟨2, 4, 1, true⟩
private def was : List (Motion ℚ) := List.replicate 5 ⟨7, 0, 0⟩

/-- Non-vacuity of C108_weights: a double support without samples after two good phases; the vector had five elements. -/
example : Zmp.weights times ⟨0, 0, 0⟩ 1 six [0, 2, 4, 4, 6] = .fail ∧
    Zmp.weightsAfter times ⟨0, 0, 0⟩ 1 six [0, 2, 4, 4, 6] was =
      [⟨0, 0, 0⟩, ⟨0, 0, 0⟩, ⟨1, 0, 0⟩, ⟨1, 0, 0⟩, ⟨7, 0, 0⟩, ⟨0, 0, 0⟩] ∧
    Zmp.statesAfter times ⟨0, 0, 0⟩ 1 [2, 5] six [0, 2, 4, 4, 6] [⟨8, 0, 0⟩, ⟨9, 0, 0⟩] = .ok [⟨1, 0, 0⟩, ⟨9, 0, 0⟩] := by
  decide +kernel

/-- Non-vacuity of C108_weights: a pause that has no time to end; its samples have been written. -/
example : Zmp.weights (⟨1 / 4, 0, 1, true⟩ : ZmpTimes ℚ) ⟨0, 0, 0⟩ 1 six [0, 2, 4, 6] = .fail ∧
    Zmp.weightsAfter ⟨1 / 4, 0, 1, true⟩ ⟨0, 0, 0⟩ 1 six [0, 2, 4, 6] was =
      [⟨0, 0, 3⟩, ⟨1 / 2, 0, 0⟩, ⟨7, 0, 0⟩, ⟨7, 0, 0⟩, ⟨7, 0, 0⟩, ⟨0, 0, 0⟩] := by
  decide +kernel

/-- Non-vacuity of C108_local: a stance without samples; `resize` adds an element. -/
example : Zmp.localZmp times ⟨0, 0⟩ ⟨1, 0⟩ 1 six [0, 2, 2, 4, 6] = .fail ∧
    (Zmp.localAfter times ⟨0, 0⟩ ⟨1, 0⟩ 1 six [0, 2, 2, 4, 6] (⟨9, 0, 0⟩, ⟨9, 0, 0⟩)
      (List.replicate 5 (⟨7, 0, 0⟩, ⟨7, 0, 0⟩))).map (fun m => m.1.pos) = [0, 0, 7, 7, 7, 9] := by
  decide +kernel

private def zgen : Zmp ℚ := Zmp.new ⟨0, 0, 0, 0, ⟨0, 0, 0⟩, false, st 0 0 "left", st 0 0 "right", false, []⟩
private def zset : GenSettings ℚ := { set with pauseActive := false }
private def stood : ZmpOut ℚ := ⟨was, was, List.replicate 5 (⟨7, 0, 0⟩, ⟨7, 0, 0⟩), List.replicate 5 (⟨7, 0, 0⟩, ⟨7, 0, 0⟩), []⟩

/-- Non-vacuity of C108_zmp: the weights fail and the other vectors are those that were there. -/
example : zgen.computeNewTrajectories zset 0 1 [2, 5] l1 r1 [st 0 0 "left", st 0 0 "right"] six six [0, 2, 4, 4, 6] = .fail ∧
    (zgen.after zset 0 1 l1 r1 [st 0 0 "left", st 0 0 "right"] six six [0, 2, 4, 4, 6] (⟨0, 0, 0⟩, ⟨0, 0, 0⟩) stood).weightL.length = 6 ∧
    (zgen.after zset 0 1 l1 r1 [st 0 0 "left", st 0 0 "right"] six six [0, 2, 4, 4, 6] (⟨0, 0, 0⟩, ⟨0, 0, 0⟩) stood).weightR = was := by
  decide +kernel

/-- Non-vacuity of C108_zmp_done, C108_dcm_done: the walk of the example succeeds. -/
example : (match zgen.computeNewTrajectories set 0 1 (tl l1 r1 s1).2.merges l1 r1 ((tl l1 r1 s1).1.map Ptr.step)
      (tl l1 r1 s1).2.left (tl l1 r1 s1).2.right (tl l1 r1 s1).2.shifts with | .ok _ => true | _ => false) = true ∧
    (match gen.computeNewTrajectories set 0 1 ((tl l1 r1 s1).1.map Ptr.step) (tl l1 r1 s1).2.shifts (tl l1 r1 s1).2.left l1 r1 with
      | .ok (true, _, some _) => true | _ => false) = true ∧
    (tl l1 r1 s1).2.shifts = [0, 2, 4, 6, 8, 10] ∧ (tl l1 r1 s1).2.left.length = 10 := by
  decide +kernel

/-- Non-vacuity of C108_dcm_weights: the right foot should swing, but it has no other step. -/
example : gen.feetWeights six [0, 2, 4, 6] l1.steps [st 0 0 "right"] (List.replicate 6 ⟨0, 0⟩) = .fail ∧
    gen.weightsAfter six [0, 2, 4, 6] l1.steps [st 0 0 "right"] (List.replicate 6 ⟨0, 0⟩) (List.replicate 5 (7, 8)) =
      [(0, 1), (0, 1), (1, 0), (1, 0), (7, 8), (0, 0)] := by
  decide +kernel

private def before : DcmOut ℚ :=
  gen.after set 0 1 ((tl l1 r1 s1).1.map Ptr.step) (tl l1 r1 s1).2.shifts (tl l1 r1 s1).2.left l1 r1 ⟨[], [], []⟩

/-- C108 (DCM), and non-vacuity of C108_dcm and C108_dcm_walk: a call that fails for a walk of ten samples, after one that
succeeded, leaves nine positions of the DCM beside ten weights. -/
theorem C108_dcm_witness :
    let d : Dcm ℚ := { gen with stillness := 9 / 10 }
    (match d.computeNewTrajectories set 0 1 ((tl l1 r1 s1).1.map Ptr.step) (tl l1 r1 s1).2.shifts (tl l1 r1 s1).2.left l1 r1 with
      | .ok (b, _, x) => b || x.isSome | _ => true) = false ∧
    before.samples.length = 10 ∧ before.weights.length = 10 ∧
    (d.after set 0 1 ((tl l1 r1 s1).1.map Ptr.step) (tl l1 r1 s1).2.shifts (tl l1 r1 s1).2.left l1 r1 before).samples.length = 9 ∧
    (d.after set 0 1 ((tl l1 r1 s1).1.map Ptr.step) (tl l1 r1 s1).2.shifts (tl l1 r1 s1).2.left l1 r1 before).weights.length = 10 := by
  decide +kernel

example : Dcm.Walk set l1 r1 0 1 s1 (tl l1 r1 s1).1 (tl l1 r1 s1).2 ∧ ValidDcm { gen with stillness := 9 / 10 } :=
  ⟨walk1, by decide +kernel, by decide +kernel, by decide +kernel⟩

end Uni
