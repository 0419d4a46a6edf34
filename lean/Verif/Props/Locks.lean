import Verif.Lemmas.Supervised
import Verif.Lemmas.Progress
import Verif.Props.Walker

/-! # C53, C84, C85: concurrent calls -/

set_option autoImplicit false
set_option linter.unusedSectionVars false

namespace Uni.Threads
open Conc Walker Spec

section
variable {K : Type} [Field K] [LinearOrder K] [FloorRing K] [Trig K]
variable {ι : Type} [DecidableEq ι]

/-! ## Alone -/

/-- The code of the calls that generate does, alone, what `Model/Walker` says. -/
theorem C53_calls_alone (garbage : K) (integ : Integrator K) (fuel : Nat) (sort : Sorter K) (s : State K)
    (hne : (s .feet).1 ≠ (s .feet).2) :
    (∀ l r initTime dT, Matches garbage (alone (code garbage integ fuel sort (.fromFootPrints l r initTime dT)) s)
      ((walker garbage s).call integ fuel sort (.fromFootPrints (s .steps l) (s .steps r) initTime dT))) ∧
    (∀ initTime dT endTime, Matches garbage (alone (code garbage integ fuel sort (.generate initTime dT endTime)) s)
      ((walker garbage s).call integ fuel sort (.generate initTime dT endTime))) ∧
    ∀ initTime dT endTime q, Matches garbage (alone (code garbage integ fuel sort (.reGenerate initTime dT endTime q)) s)
      ((walker garbage s).call integ fuel sort (.reGenerate initTime dT endTime q)) := by
  refine ⟨fun l r initTime dT => ?_, fun initTime dT endTime => matches_generate _ _ _ _ _ _ _ _ hne,
    fun initTime dT endTime q => matches_reGenerate _ _ _ _ _ _ _ _ _ hne⟩
  have h := matches_fromFootPrints garbage (walker garbage s) sort (l, r) initTime dT s
  unfold call
  exact h

/-- The setters do, alone, what `Model/Walker` says.  A trajectory generator has to be attached before its setters are called; until
then it is as its constructor makes it. -/
theorem C53_setters_alone (garbage : K) (integ : Integrator K) (fuel : Nat) (sort : Sorter K) (s : State K) :
    (∀ o, walker garbage (alone (code garbage integ fuel sort (.timing o)) s).2 = (walker garbage s).run (.timing o)) ∧
    (∀ o, walker garbage (alone (code garbage integ fuel sort (.planner o)) s).2 = (walker garbage s).run (.planner o)) ∧
    ((s .attached).cubic = true → ∀ o,
      walker garbage (alone (code garbage integ fuel sort (.cubic o)) s).2 = (walker garbage s).run (.cubic o)) ∧
    ((s .attached).minJerk = true → ∀ o,
      walker garbage (alone (code garbage integ fuel sort (.minJerk o)) s).2 = (walker garbage s).run (.minJerk o)) ∧
    ((s .attached).zmp = true → ∀ o,
      walker garbage (alone (code garbage integ fuel sort (.zmp o)) s).2 = (walker garbage s).run (.zmp o)) ∧
    ((s .attached).dcm = true → ∀ o,
      walker garbage (alone (code garbage integ fuel sort (.dcm o)) s).2 = (walker garbage s).run (.dcm o)) ∧
    ((s .attached).height = true → ∀ h delta,
      walker garbage (alone (code garbage integ fuel sort (.height h delta)) s).2 = (walker garbage s).run (.height h delta)) ∧
    (((s .attached).cubic = false → s .cubic = ⟨FeetSettings.new, none⟩) →
      walker garbage (alone (code garbage integ fuel sort .addCubic) s).2 = (walker garbage s).run .addCubic) ∧
    (((s .attached).minJerk = false → s .minJerk = ⟨FeetSettings.new, none⟩) →
      walker garbage (alone (code garbage integ fuel sort .addMinJerk) s).2 = (walker garbage s).run .addMinJerk) ∧
    (∀ g, ((s .attached).zmp = false → s .zmp = ⟨Zmp.new g, none⟩) →
      walker garbage (alone (code garbage integ fuel sort .addZmp) s).2 = (walker garbage s).run (.addZmp g)) ∧
    (((s .attached).dcm = false → s .dcm = ⟨Dcm.new, none⟩) →
      walker garbage (alone (code garbage integ fuel sort .addDcm) s).2 = (walker garbage s).run .addDcm) ∧
    (((s .attached).height = false → s .height = ⟨HeightSettings.new, none⟩) →
      walker garbage (alone (code garbage integ fuel sort .addHeight) s).2 = (walker garbage s).run .addHeight) := by
  refine ⟨fun o => ?_, fun o => ?_, fun h o => ?_, fun h o => ?_, fun h o => ?_, fun h o => ?_, fun h x y => ?_, fun h => ?_, fun h => ?_,
    fun g h => ?_, fun h => ?_, fun h => ?_⟩
  · simp only [code]
    split <;> simp [guarded, alone, walker, Walker.run]
  · simp only [code]
    split <;> simp [guarded, alone, walker, Walker.run]
  · simp [code, guarded, alone, walker, Walker.run, Plugin.set, h, setter]
  · simp [code, guarded, alone, walker, Walker.run, Plugin.set, h, setter]
  · simp [code, guarded, alone, walker, Walker.run, Plugin.set, h, setter]
  · simp only [code, guarded, alone, alone_use, walker, Walker.run, Plugin.set, h, setter]
    cases o <;> simp [dcmRun, DcmOp.run, h]
  · simp [code, guarded, alone, walker, Walker.run, Plugin.set, h, setter]
  · cases e : (s .attached).cubic <;> simp [code, guarded, alone, walker, Walker.run, Plugin.attach, e]
    exact h e
  · cases e : (s .attached).minJerk <;> simp [code, guarded, alone, walker, Walker.run, Plugin.attach, e]
    exact h e
  · cases e : (s .attached).zmp <;> simp [code, guarded, alone, walker, Walker.run, Plugin.attach, e]
    exact h e
  · cases e : (s .attached).dcm <;> simp [code, guarded, alone, walker, Walker.run, Plugin.attach, e]
    exact h e
  · cases e : (s .attached).height <;> simp [code, guarded, alone, walker, Walker.run, Plugin.attach, e]
    exact h e

/-! ## C53: atomicity -/

/-- C53, as far as it is true: any number of calls of `generateFromFootPrints`, of the locked setters and getters of the generator and
of the planner, and of the methods of one trajectory generator, in any interleaving, are as if they were executed one after the
other.  Missing: `generate`, `reGenerate`, the methods that take no lock, and the methods of a second trajectory generator, see
`C53_generate_witness` and `C53_settings_witness`. -/
theorem C53_linearizable_partial (garbage : K) (integ : Integrator K) (fuel : Nat) (sort : Sorter K) (shared : Mutex) (m : ι → Method K)
    (h : ∀ i, Atomic shared (m i)) (s : State K) {τ : List ι} {c : Config ι Obj Mutex (Val K) (Reply K)}
    (hr : run (start s fun i => code garbage integ fuel sort (m i)) τ = some c) :
    Linear s (fun i => code garbage integ fuel sort (m i)) τ c :=
  linear_of_twoPhase (guard := mutexOf shared) (fun i => twoPhase_code _ _ _ _ (h i)) hr

/-- A way to have C53: if the callers use a mutex of their own around all calls, then all methods are atomic. -/
theorem C53_own_mutex (garbage : K) (integ : Integrator K) (fuel : Nat) (sort : Sorter K) (m : ι → Method K) (s : State K) {τ : List ι}
    {c : Config ι Obj (Option Mutex) (Val K) (Reply K)}
    (hr : run (start s fun i => (code garbage integ fuel sort (m i)).under) τ = some c) :
    Linear s (fun i => (code garbage integ fuel sort (m i)).under) τ c :=
  linear_of_twoPhase (guard := fun _ => none)
    (fun _ => twoPhase_under ⟨.cfg, rfl⟩ (phase_of_ordered _ (ordered_code _ _ _ _ _))) hr

/-- Another one: the calls of some methods, among which `generate` and `reGenerate`, are made one at a time, say by one thread (`one i`);
the locked setters of the timings, the getters of the contacts and phases, and the methods of one of the generators of the feet or of
the height are called by anyone. -/
theorem C53_one_planning_thread (garbage : K) (integ : Integrator K) (fuel : Nat) (sort : Sorter K) (shared : Mutex)
    (hs : shared = .cubic ∨ shared = .minJerk ∨ shared = .height) (m : ι → Method K) (one : ι → Bool)
    (h : ∀ i, if one i then Supervised (m i) else Free shared (m i)) (s : State K) {τ : List ι}
    {c : Config ι Obj (Option Mutex) (Val K) (Reply K)}
    (hr : run (start s fun i => if one i then (code garbage integ fuel sort (m i)).under else (code garbage integ fuel sort (m i)).lift) τ
      = some c) :
    Linear s (fun i => if one i then (code garbage integ fuel sort (m i)).under else (code garbage integ fuel sort (m i)).lift) τ c := by
  have key : ∀ i, ∃ p, Erases ∅ (if one i then (code garbage integ fuel sort (m i)).under else (code garbage integ fuel sort (m i)).lift) p ∧
      TwoPhase (protector shared) ∅ False p := by
    intro i
    have hi := h i
    cases e : one i with
    | true =>
      rw [e] at hi
      obtain ⟨p, h1, h2⟩ := phase_code (shared := shared) garbage integ fuel sort (m := m i) (by simpa using hi)
        (by rcases hs with rfl | rfl | rfl <;> decide) (by rcases hs with rfl | rfl | rfl <;> decide)
        (by rcases hs with rfl | rfl | rfl <;> decide)
      exact ⟨p.under, by simpa using h1.under, twoPhase_under (protector_none _) h2⟩
    | false =>
      rw [e] at hi
      exact ⟨_, .refl _, by simpa using twoPhase_free garbage integ fuel sort (m := m i) (by simpa using hi)⟩
  choose code' h1 h2 using key
  exact linear_of_erases h1 (fun _ _ hd => linear_of_twoPhase h2 hd) hr

/-! ## C84: no deadlock -/

/-- C84: whatever methods are called at the same time, nobody ever waits for ever: some call can always go on, and any execution that
has begun can be completed, after finitely many operations and whatever the order in which they are made. -/
theorem C84_no_deadlock (garbage : K) (integ : Integrator K) (fuel : Nat) (sort : Sorter K) (m : ι → Method K) (s : State K) {τ : List ι}
    {c : Config ι Obj Mutex (Val K) (Reply K)} (hr : run (start s fun i => code garbage integ fuel sort (m i)) τ = some c) :
    ¬ Deadlock c :=
  no_deadlock (rank := rank) (n := 2) (by intro l; cases l <;> decide) (fun _ => ordered_code _ _ _ _ _) hr

theorem C84_all_return [Fintype ι] (garbage : K) (integ : Integrator K) (fuel : Nat) (sort : Sorter K) (m : ι → Method K) (s : State K)
    {τ : List ι} {c : Config ι Obj Mutex (Val K) (Reply K)} (hr : run (start s fun i => code garbage integ fuel sort (m i)) τ = some c) :
    (∃ τ' c', run c τ' = some c' ∧ ∀ i, Returned c' i) ∧ Acc (fun c' c => ∃ i, Conc.step c i = some c') c :=
  ⟨completes (fun _ _ h => C84_no_deadlock garbage integ fuel sort m s h) c τ hr, wf_step.apply c⟩

/-! ## C85: no data race -/

/-- C85, as far as it is true: calls of the methods that take the lock of their class never race.  Missing: the methods that take no
lock, and `generate` and `reGenerate`, see the witnesses below. -/
theorem C85_no_race_partial (garbage : K) (integ : Integrator K) (fuel : Nat) (sort : Sorter K) (m : ι → Method K)
    (h : ∀ i, Careful (m i)) (s : State K) {τ : List ι} {c : Config ι Obj Mutex (Val K) (Reply K)}
    (hr : run (start s fun i => code garbage integ fuel sort (m i)) τ = some c) : ¬ Race c :=
  no_race (guard := classMutex) (fun i => guarded_code _ _ _ _ (h i)) hr

/-- Two calls can race. -/
def CanRace (s : State K) (p q : Code K) : Prop :=
  ∃ (τ : List Bool) (c : Config Bool Obj Mutex (Val K) (Reply K)), run (start s fun b => if b then p else q) τ = some c ∧ Race c

/-- C85 does not hold of the methods that take no lock, in any state: a setter of the pauses or of the merge point, the getters of the
footprints, the methods of a footprint, and `setNavigationPath` race with the calls that generate. -/
theorem C85_unlocked_witness (garbage : K) (integ : Integrator K) (fuel : Nat) (sort : Sorter K) (s : State K) (l r : Handle)
    (initTime dT endTime : K) :
    let code := code garbage integ fuel sort
    let generates := code (.generate initTime dT endTime)
    let fromGiven := code (.fromFootPrints l r initTime dT)
    (∀ b, CanRace s (code (.timing (.setPauseActive b))) fromGiven) ∧
    CanRace s (code .getFootPrints) fromGiven ∧
    (∀ h, CanRace s (code (.footPrint h .clearSteps)) generates) ∧
    (∀ h, CanRace s (code (.footPrint h .clearSteps)) fromGiven) ∧
    ((s .planner).controller = .navigation → ∀ path, 2 ≤ path.length →
      CanRace s (code (.planner (.setNavigationPath path))) generates) := by
  intro code generates fromGiven
  have start : ∀ (p q : Code K) (τ : List Bool) c, run (start s fun b => if b then p else q) τ = some c → Race c → CanRace s p q :=
    fun p q τ c h hr => ⟨τ, c, h, hr⟩
  refine ⟨fun b => start _ _ [false, false, false] _ rfl ⟨true, false, .cfg, _, _, _, _, by decide, rfl, rfl,
      ⟨0, 0, 0, 0, 0, !b, 0, 0⟩, ?_⟩,
    start _ _ [false] _ rfl ⟨false, true, .feet, _, _, _, _, by decide, rfl, rfl, (l + 1, r), ?_⟩,
    fun h => start _ _ [false, false] _ rfl ⟨true, false, .steps, _, _, _, _, by decide, rfl, rfl, fun _ => ⟨[⟨⟨0, 0⟩, 0, 0, ""⟩], ""⟩, ?_⟩,
    fun h => start _ _ [false, false] _ rfl ⟨true, false, .steps, _, _, _, _, by decide, rfl, rfl, fun _ => ⟨[⟨⟨0, 0⟩, 0, 0, ""⟩], ""⟩, ?_⟩,
    fun _ path hp => start _ _ [false, false, false, false] _ rfl ⟨true, false, .planner, _, _, _, _, by decide, rfl, rfl,
      { s .planner with ctrl := { (s .planner).ctrl with nav := { (s .planner).ctrl.nav with path := [] } } }, ?_⟩⟩
  · intro h
    have := congrArg GenSettings.pauseActive h
    simp [GenSettings.run] at this
  · intro h
    have := congrArg Prod.fst h
    simp at this
  · intro e
    have := congrArg FootPrint.steps (congrFun e h)
    simp [FootPrint.run, FootPrint.clearSteps] at this
  · intro e
    have := congrArg FootPrint.steps (congrFun e h)
    simp [FootPrint.run, FootPrint.clearSteps] at this
  · intro e
    have := congrArg (fun p => p.ctrl.nav.path) e
    have hn : ¬ path.length < 2 := by omega
    simp only [Planner.run, NavCtrl.setNavigationPath, if_neg hn] at this
    rw [this] at hp
    simp at hp

end

/-! ## Witnesses -/

section
local instance : Trig ℚ :=
  ⟨fun _ => 1, fun _ => 0, fun q => Nat.sqrt (⌊q * 10 ^ 8⌋₊) / 10 ^ 4, fun x => 1 + x, fun _ => 0, fun _ _ => 0, 22 / 7⟩

private def straight : Integrator ℚ := fun p u t0 _ =>
  (p.ctrl, some fun t => ⟨⟨u.position.x + (t - t0) / 40, u.position.y⟩, u.angle⟩)

private def planner0 : Planner ℚ :=
  ((Walker.new 0).runAll [.planner (.setPlannerPeriod (1 / 2)), .planner (.setUnicycleController .direct)] : Walker ℚ).planner

/-- Six footprints: the generator's, two without steps, and two with a step of the right foot. -/
private def demo (a : Attached) : State ℚ
  | .cfg => GenSettings.new
  | .feet => (0, 1)
  | .steps => fun h => match h with
    | 0 => ⟨[], "left"⟩
    | 1 => ⟨[], "right"⟩
    | 2 => ⟨[], "left"⟩
    | 3 => ⟨[], "right"⟩
    | 4 => ⟨[⟨⟨0, 1 / 10⟩, 0, 0, "left"⟩], "left"⟩
    | _ => ⟨[⟨⟨0, -1 / 10⟩, 0, 0, "right"⟩, ⟨⟨1 / 10, -1 / 10⟩, 0, 6, "right"⟩], "right"⟩
  | .outputs => GenOutputs.new
  | .attached => a
  | .planner => planner0
  | .cubic => ⟨(FeetSettings.new.run (.setStepHeight (1 / 10))).2, none⟩
  | .minJerk => ⟨FeetSettings.new, none⟩
  | .zmp => ⟨Zmp.new ⟨0, 0, 0, 0, ⟨0, 0, 0⟩, true, ⟨0, 0, 0, ""⟩, ⟨0, 0, 0, ""⟩, true, []⟩, none⟩
  | .dcm => ⟨Dcm.new, none⟩
  | .height => ⟨⟨1, 0⟩, none⟩

private def method : Method ℚ → Code ℚ := code 0 straight 1000 insertion

private def isFlag (b : Bool) : Reply ℚ → Bool
  | .flag c => b == c
  | _ => false

private def replied {ι : Type} (b : Bool) (i : ι) (c : Option (Config ι Obj Mutex (Val ℚ) (Reply ℚ))) : Bool :=
  match c with
  | some c => match c.code i with
    | .ret x => isFlag b x
    | _ => false
  | none => false

private theorem of_replied {ι : Type} {b : Bool} {i : ι} {c : Config ι Obj Mutex (Val ℚ) (Reply ℚ)} (h : replied b i (some c) = true) :
    c.code i = .ret (.flag b) := by
  simp only [replied] at h
  split at h
  · rename_i x e
    cases x <;> simp [isFlag] at h
    rw [e, h]
  · simp at h

/-- The next operation of the call is an access of the object. -/
private def next (r : Obj) : Code ℚ → Bool
  | .access r' _ _ => r == r'
  | _ => false

private theorem of_next {r : Obj} {p : Code ℚ} (h : next r p = true) : ∃ f k, p = .access r f k := by
  cases p <;> simp [next] at h
  subst h
  exact ⟨_, _, rfl⟩

/-- The next operation of the call changes the pointers to the footprints. -/
private def movesFeet : Code ℚ → Bool
  | .access .feet f _ => f (0, 0) ≠ (0, 0)
  | _ => false

private theorem of_movesFeet {p : Code ℚ} (h : movesFeet p = true) : ∃ f k, p = .access .feet f k ∧ ∃ v, f v ≠ v := by
  unfold movesFeet at h
  split at h
  · exact ⟨_, _, rfl, _, by simpa using h⟩
  · simp at h

/-- The next operation of the call changes the foot that the planner swings. -/
private def movesSwing : Code ℚ → Bool
  | .access .planner f _ => (f { planner0 with swingLeft := false }).swingLeft
  | _ => false

private theorem of_movesSwing {p : Code ℚ} (h : movesSwing p = true) : ∃ f k, p = .access .planner f k ∧ ∃ v, f v ≠ v := by
  unfold movesSwing at h
  split at h
  · refine ⟨_, _, rfl, { planner0 with swingLeft := false }, fun e => ?_⟩
    rw [e] at h
    simp at h
  · simp at h

/-- Nothing attached. -/
private def alone0 : State ℚ := demo ⟨false, false, false, false, false⟩

private def calls1 : Bool → Code ℚ
  | false => method (.generate 0 (1 / 2) 10)
  | true => method (.fromFootPrints 2 3 0 (1 / 2))

private def tau1 : List Bool := List.replicate 8 false ++ List.replicate 6 true ++ List.replicate 7 false

private theorem check1 :
    replied false false (run (start alone0 calls1) tau1) = true ∧
    isFlag true (alone (calls1 false) alone0).1 = true ∧
    isFlag true (alone (calls1 false) (serial calls1 alone0 [true])).1 = true := by
  decide +kernel

/-- C53 does not hold of `generate`: `generateFromFootPrints`, called while `generate` is between its two blocks, makes it fail although
it would succeed before and after.  The planned steps are lost: `generate` uses the other footprints. -/
theorem C53_generate_witness :
    ∃ (s : State ℚ) (τ : List Bool) (c : Config Bool Obj Mutex (Val ℚ) (Reply ℚ)),
      let m : Bool → Method ℚ := fun b => if b then .fromFootPrints 2 3 0 (1 / 2) else .generate 0 (1 / 2) 10
      let calls := fun b => code 0 straight 1000 insertion (m b)
      run (start s calls) τ = some c ∧ c.code false = .ret (.flag false) ∧
      (alone (calls false) s).1 = .flag true ∧
      (alone (calls false) (alone (calls true) s).2).1 = .flag true ∧ ¬ Linear s calls τ c := by
  have hc : (fun b => code 0 straight 1000 insertion
      (if b then .fromFootPrints 2 3 0 (1 / 2) else .generate 0 (1 / 2) 10 : Method ℚ)) = calls1 := by
    funext b
    cases b <;> rfl
  obtain ⟨h1, h2, h3⟩ := check1
  obtain ⟨c, e⟩ : ∃ c, run (start alone0 calls1) tau1 = some c := by
    cases e : run (start alone0 calls1) tau1 with
    | none =>
      rw [e] at h1
      simp [replied] at h1
    | some c => exact ⟨c, rfl⟩
  rw [e] at h1
  have h2' : (alone (calls1 false) alone0).1 = .flag true := by
    generalize (alone (calls1 false) alone0).1 = x at h2
    cases x <;> simp [isFlag] at h2
    rw [← h2]
  have h3' : (alone (calls1 false) (serial calls1 alone0 [true])).1 = .flag true := by
    generalize (alone (calls1 false) (serial calls1 alone0 [true])).1 = x at h3
    cases x <;> simp [isFlag] at h3
    rw [← h3]
  refine ⟨alone0, tau1, c, ?_⟩
  intro m calls
  have hm : calls = calls1 := hc
  rw [hm]
  refine ⟨e, of_replied h1, h2', h3', ?_⟩
  rintro ⟨order, hn, -, hr, hv, -, -⟩
  obtain ⟨before, after, rfl⟩ := List.append_of_mem (hr false ⟨_, of_replied h1⟩)
  have hx := hv before false after _ rfl (of_replied h1)
  have hb : before = [] ∨ before = [true] := by
    have h4 : ∀ b ∈ before, b = true := by
      intro b hb
      cases b with
      | true => rfl
      | false =>
        have := (List.nodup_append.1 hn).2.2 false hb false (by simp)
        exact absurd rfl this
    have h5 := (List.nodup_append.1 hn).1
    match before, h4, h5 with
    | [], _, _ => exact .inl rfl
    | [a], h4, _ => exact .inr (by rw [h4 a (by simp)])
    | a :: b :: l, h4, h5 =>
      rw [h4 a (by simp), h4 b (by simp)] at h5
      simp at h5
  rcases hb with rfl | rfl
  · rw [show serial calls1 alone0 [] = alone0 from rfl, h2'] at hx
    cases hx
  · rw [h3'] at hx
    cases hx

/-- The generators of the feet and of the height attached. -/
private def both : State ℚ := demo ⟨true, false, false, false, true⟩

private def calls2 (i : Fin 3) : Code ℚ :=
  method (match i with
    | 0 => .fromFootPrints 4 5 0 (1 / 2)
    | 1 => .cubic (.setStepHeight (1 / 5))
    | 2 => .height 2 0)

private def tau2 : List (Fin 3) :=
  (List.replicate 9 0 ++ List.replicate 3 1) ++ (List.replicate 3 2 ++ List.replicate 4 0)

/-- The heights of the left and the right foot, and of the centre of mass. -/
private def summary (s : State ℚ) : Option (List ℚ) × Option (List ℚ) :=
  (((s .cubic).result.map fun r => r.2.map fun x => x.pos.z), ((s .height).result.map fun r => r.map fun m => m.pos))

private theorem check2 :
    (∀ i, replied true i (run (start both calls2) tau2) = true) ∧
    replied true 1 (run (start both calls2) (List.replicate 9 0 ++ List.replicate 3 1)) = true ∧
    ∀ order ∈ [0, 1, 2].permutations', order.idxOf 1 < order.idxOf 2 →
      (run (start both calls2) tau2).map (fun c => summary c.store) ≠ some (summary (serial calls2 both order)) := by
  decide +kernel

/-- C53 does not hold of `generateFromFootPrints` either if other threads change the settings of two trajectory generators: here
`setStepHeight` has returned before `setCoMHeightSettings` is called, and yet the trajectories are those of the old height of the steps
and of the new height of the centre of mass. -/
theorem C53_settings_witness :
    ∃ (s : State ℚ) (τ : List (Fin 3)) (c : Config (Fin 3) Obj Mutex (Val ℚ) (Reply ℚ)),
      let m : Fin 3 → Method ℚ := fun i => match i with
        | 0 => .fromFootPrints 4 5 0 (1 / 2)
        | 1 => .cubic (.setStepHeight (1 / 5))
        | 2 => .height 2 0
      let calls := fun i => code 0 straight 1000 insertion (m i)
      run (start s calls) τ = some c ∧ (∀ i, c.code i = .ret (.flag true)) ∧ ¬ Linear s calls τ c := by
  obtain ⟨h1, h2, h3⟩ := check2
  obtain ⟨c, e⟩ : ∃ c, run (start both calls2) tau2 = some c := by
    cases e : run (start both calls2) tau2 with
    | none =>
      have := h1 0
      rw [e] at this
      simp [replied] at this
    | some c => exact ⟨c, rfl⟩
  obtain ⟨c₁, e₁⟩ : ∃ c, run (start both calls2) (List.replicate 9 0 ++ List.replicate 3 1) = some c := by
    cases e : run (start both calls2) (List.replicate 9 0 ++ List.replicate 3 1) with
    | none =>
      rw [e] at h2
      simp [replied] at h2
    | some c => exact ⟨c, rfl⟩
  rw [e] at h1 h3
  rw [e₁] at h2
  refine ⟨both, tau2, c, e, fun i => of_replied (h1 i), ?_⟩
  rintro ⟨order, hn, -, hr, -, ht, hs⟩
  obtain ⟨first, ⟨rest, hf⟩, h4, h5⟩ := ht _ _ c₁ rfl e₁
  have hall : ∀ i, i ∈ order := fun i => hr i ⟨_, of_replied (h1 i)⟩
  refine h3 order ?_ ?_ ?_
  · rw [List.mem_permutations', List.perm_ext_iff_of_nodup hn (by decide)]
    intro i
    exact ⟨fun _ => (by decide : ∀ i : Fin 3, i ∈ [0, 1, 2]) i, fun _ => hall i⟩
  · have h6 : (1 : Fin 3) ∈ first := h4 1 ⟨_, of_replied h2⟩
    have h7 : (2 : Fin 3) ∉ first := by
      intro h
      have := h5 2 h
      revert this
      decide
    rw [← hf, List.idxOf_append_of_mem h6, List.idxOf_append_of_notMem h7]
    exact Nat.lt_of_lt_of_le (List.idxOf_lt_length_iff.2 h6) (Nat.le_add_right _ _)
  · have h8 := hs fun i _ => ⟨_, of_replied (h1 i)⟩
    simp only [Option.map_some]
    rw [h8]
    rfl

private def calls3 : Bool → Code ℚ
  | false => method (.generate 0 (1 / 2) 10)
  | true => method .startWithLeft

private theorem check3 :
    (match run (start alone0 calls1) (List.replicate 8 false ++ [true]) with
      | some c => next .feet (c.code false) && movesFeet (c.code true)
      | none => false) = true ∧
    (match run (start alone0 calls3) (List.replicate 4 false) with
      | some c => movesSwing (c.code false) && next .planner (c.code true)
      | none => false) = true := by
  decide +kernel

/-- C85 does not hold of `generate`: it reads the pointers to the footprints without a lock, and the planner changes the foot to swing
while `startWithLeft` may read it. -/
theorem C85_generate_witness :
    ∃ s : State ℚ, let code := code 0 straight 1000 insertion
      CanRace s (code (.fromFootPrints 2 3 0 (1 / 2))) (code (.generate 0 (1 / 2) 10)) ∧
      CanRace s (code .startWithLeft) (code (.generate 0 (1 / 2) 10)) := by
  obtain ⟨h1, h2⟩ := check3
  have e1 : (fun b => if b then code 0 straight 1000 insertion (.fromFootPrints 2 3 0 (1 / 2))
      else code 0 straight 1000 insertion (.generate 0 (1 / 2) 10)) = calls1 := by
    funext b
    cases b <;> rfl
  have e2 : (fun b => if b then code 0 straight 1000 insertion .startWithLeft
      else code 0 straight 1000 insertion (.generate 0 (1 / 2) 10)) = calls3 := by
    funext b
    cases b <;> rfl
  refine ⟨alone0, ⟨List.replicate 8 false ++ [true], ?_⟩, ⟨List.replicate 4 false, ?_⟩⟩
  · rw [e1]
    split at h1
    · rename_i c e
      rw [Bool.and_eq_true] at h1
      obtain ⟨f, k, hk⟩ := of_next h1.1
      obtain ⟨g, m, hm, hv⟩ := of_movesFeet h1.2
      exact ⟨c, e, true, false, .feet, g, m, f, k, by decide, hm, hk, hv⟩
    · cases h1
  · rw [e2]
    split at h2
    · rename_i c e
      rw [Bool.and_eq_true] at h2
      obtain ⟨f, k, hk⟩ := of_next h2.2
      obtain ⟨g, m, hm, hv⟩ := of_movesSwing h2.1
      exact ⟨c, e, false, true, .planner, g, m, f, k, by decide, hm, hk, hv⟩
    · cases h2

/-! ## Non-vacuity -/

/-- Three calls that interleave, all of which are atomic, succeed. -/
example : (∀ i : Fin 3, Atomic (K := ℚ) .cubic (![.fromFootPrints 4 5 0 (1 / 2), .cubic (.setStepHeight (1 / 5)), .getOutputs] i)) ∧
    ∃ c, run (start both fun i => code 0 straight 1000 insertion
      ((![.fromFootPrints 4 5 0 (1 / 2), .cubic (.setStepHeight (1 / 5)), .getOutputs] : Fin 3 → Method ℚ) i))
      [0, 0, 0, 1, 0, 1, 0, 1, 0] = some c := by
  refine ⟨fun i => by fin_cases i <;> simp [Atomic], ?_⟩
  rw [← Option.isSome_iff_exists]
  decide +kernel

/-- `generate` by the planning thread while others read and set. -/
example : (∀ i : Fin 3, if ![true, false, false] i
      then Supervised (K := ℚ) (![.generate 0 (1 / 2) 10, .height 2 0, .getOutputs] i)
      else Free .height (![.generate 0 (1 / 2) 10, .height 2 0, .getOutputs] i : Method ℚ)) ∧
    ∃ c, run (start both fun i => if ![true, false, false] i
        then (code 0 straight 1000 insertion ((![.generate 0 (1 / 2) 10, .height 2 0, .getOutputs] : Fin 3 → Method ℚ) i)).under
        else (code 0 straight 1000 insertion ((![.generate 0 (1 / 2) 10, .height 2 0, .getOutputs] : Fin 3 → Method ℚ) i)).lift)
      [0, 1, 0, 0, 1, 0, 0, 1, 0, 0, 0, 0, 2, 2, 2, 0] = some c := by
  refine ⟨fun i => by fin_cases i <;> simp [Supervised, Free], ?_⟩
  rw [← Option.isSome_iff_exists]
  decide +kernel

/-- A program that takes its mutexes in the wrong order deadlocks: the statement of C84 is not empty. -/
example : ∃ c, run (start (V := fun _ : Unit => Unit) (fun _ => ()) fun b : Bool =>
      (.acquire b (.acquire (!b) (.release b (.release (!b) (.ret ())))) : Prog Unit Bool (fun _ => Unit) Unit)) [true, false] = some c ∧
    Deadlock c := by
  refine ⟨_, rfl, ⟨true, ?_⟩, ?_⟩
  · rintro ⟨x, h⟩
    cases h
  · intro i
    cases i <;> rfl

end

end Uni.Threads
