import Verif.Lemmas.Locks
import Verif.Spec.Threads

/-! # The locks of the methods -/

set_option autoImplicit false
set_option linter.unusedSectionVars false

namespace Uni.Threads
open Conc Walker Spec
variable {K : Type} [Field K] [LinearOrder K] [FloorRing K] [Trig K]

/-! ## Order -/

theorem insert_diff_gen {l : Mutex} (h : l ≠ .gen) : (insert l {Mutex.gen} : Set Mutex) \ {l} = {.gen} := by
  ext m; simp only [Set.mem_sdiff, Set.mem_insert_iff, Set.mem_singleton_iff]
  constructor
  · rintro ⟨rfl | rfl, h2⟩
    · exact absurd rfl h2
    · rfl
  · rintro rfl; exact ⟨Or.inr rfl, fun e => h e.symm⟩

theorem insert_diff_empty (l : Mutex) : (insert l (∅ : Set Mutex)) \ {l} = ∅ := by simp

theorem rank_gen {l : Mutex} (h : l ≠ .gen) : ∀ m ∈ ({.gen} : Set Mutex), rank m < rank l := by
  rintro m rfl; cases l <;> simp_all [rank]

theorem ordered_sub {a : Bool} {l : Mutex} {r : Obj} {g : Val K r → Verdict × Val K r} {k : Code K} (hl : l ≠ .gen)
    (h : Ordered rank {.gen} k) : Ordered rank {.gen} (sub a l r g k) := by
  unfold sub
  cases a
  · exact h
  · simp only [if_true]
    refine ⟨rank_gen hl, fun v => ⟨Set.mem_insert _ _, ?_⟩⟩
    rw [insert_diff_gen hl]
    split
    · exact h
    · exact ⟨rfl, by simp [Ordered]⟩
    · exact ⟨rfl, by simp [Ordered]⟩

theorem ordered_end (x : Reply K) : Ordered rank {Mutex.gen} (.release .gen (.ret x) : Code K) := ⟨rfl, by simp [Ordered]⟩

theorem ordered_fromFootPrints (garbage : K) (sort : Sorter K) (f : Handle × Handle) (initTime dT : K) :
    Ordered rank ∅ (fromFootPrints garbage sort f initTime dT) := by
  refine ⟨by simp, fun _ m c o => ?_⟩
  simp only [insert_empty_eq]
  split
  · exact ordered_end _
  · exact ordered_end _
  · exact fun a => ordered_sub (by decide) <| ordered_sub (by decide) <| ordered_sub (by decide) <| ordered_sub (by decide) <|
      ordered_sub (by decide) <| ordered_end _

theorem ordered_guarded {α : Type} (l : Mutex) (r : Obj) (g : Val K r → α × Val K r) (reply : α → Reply K) :
    Ordered rank ∅ (guarded l r g reply) := ⟨by simp, fun _ => ⟨Set.mem_insert _ _, by simp [Ordered]⟩⟩

theorem ordered_generate (garbage : K) (integ : Integrator K) (fuel : Nat) (sort : Sorter K) (initTime dT endTime : K) :
    Ordered rank ∅ (generate garbage integ fuel sort initTime dT endTime) := by
  refine ⟨by simp, fun f m => ?_⟩
  simp only [insert_empty_eq]
  refine ⟨rank_gen (by decide), fun p => ⟨Set.mem_insert _ _, ?_⟩⟩
  rw [insert_diff_gen (by decide)]
  split
  · refine fun _ => ⟨rfl, ?_⟩
    simp only [Set.sdiff_self]
    split
    · exact fun f => ordered_fromFootPrints _ _ _ _ _
    · simp [Ordered]
  · exact ordered_end _
  · exact ordered_end _

theorem ordered_reGenerate (garbage : K) (integ : Integrator K) (fuel : Nat) (sort : Sorter K) (initTime dT endTime : K)
    (q : Gen.Request K) : Ordered rank ∅ (reGenerate garbage integ fuel sort initTime dT endTime q) := by
  have hlast : ∀ b : Bool, Ordered rank {Mutex.gen}
      (.release .gen (if b then fromMembers garbage sort initTime dT else .ret (.flag false)) : Code K) := by
    intro b
    refine ⟨rfl, ?_⟩
    simp only [Set.sdiff_self]
    split
    · exact fun f => ordered_fromFootPrints _ _ _ _ _
    · simp [Ordered]
  refine ⟨by simp, fun f m a => ?_⟩
  simp only [insert_empty_eq]
  have hrest : ∀ v : Gen.DcmVelocity K, Ordered rank {Mutex.gen}
    (.acquire .planner <|
    use .planner (fun p =>
      match Gen.replan p integ fuel v (m f.1) (m f.2) initTime endTime q with
      | .done b p l r prev => (Gen.ReplanResult.done b p l r prev, p)
      | r => (r, p)) fun r =>
    .release .planner <|
    match r with
    | .done b _ l r prev =>
      use .steps (fun m => ((), write f l r m)) fun _ =>
      let last : Code K := .release .gen (if b then fromMembers garbage sort initTime dT else .ret (.flag false))
      match prev with
      | some s =>
        if a.zmp then
          .acquire .zmp <|
          use .zmp (fun z => ((), { z with state := z.state.setPreviousSteps s.1 s.2 })) fun _ =>
          .release .zmp last
        else last
      | none => last
    | .ub w => .release .gen (.ret (.ub w))
    | .outOfFuel => .release .gen (.ret .outOfFuel) : Code K) := by
    intro v
    refine ⟨rank_gen (by decide), fun p => ⟨Set.mem_insert _ _, ?_⟩⟩
    rw [insert_diff_gen (by decide)]
    split
    · intro _
      dsimp only
      split
      · split
        · refine ⟨rank_gen (by decide), fun z => ⟨Set.mem_insert _ _, ?_⟩⟩
          rw [insert_diff_gen (by decide)]
          exact hlast _
        · exact hlast _
      · exact hlast _
    · exact ordered_end _
    · exact ordered_end _
  split
  · refine ⟨rank_gen (by decide), fun z => ⟨Set.mem_insert _ _, ?_⟩⟩
    rw [insert_diff_gen (by decide)]
    exact hrest _
  · exact hrest _

theorem ordered_code (garbage : K) (integ : Integrator K) (fuel : Nat) (sort : Sorter K) (m : Method K) :
    Ordered rank ∅ (code garbage integ fuel sort m) := by
  cases m with
  | timing o =>
    simp only [code]
    split
    · simp [use, Ordered]
    · exact ordered_guarded _ _ _ _
  | planner o =>
    simp only [code]
    split
    · simp [use, Ordered]
    · exact ordered_guarded _ _ _ _
  | getFootPrints => simp [code, read, Ordered]
  | footPrint h o => simp [code, use, Ordered]
  | getSteps h => simp [code, read, Ordered]
  | startWithLeft => simp [code, read, Ordered]
  | fromFootPrints l r t dT => exact ordered_fromFootPrints _ _ _ _ _
  | generate t dT e => exact ordered_generate _ _ _ _ _ _ _
  | reGenerate t dT e q => exact ordered_reGenerate _ _ _ _ _ _ _ _
  | _ => exact ordered_guarded _ _ _ _

/-! ## Two phases -/

theorem mutexOf_gen (shared : Mutex) : ∃ r, mutexOf shared r = .gen := ⟨.cfg, by cases shared <;> rfl⟩

theorem mutexOf_iff {shared l : Mutex} (hl : l ≠ .gen) (hs : l ≠ .planner) : (∃ r, mutexOf shared r = l) ↔ l = shared := by
  constructor
  · rintro ⟨r, h⟩
    unfold mutexOf at h
    split at h
    · rename_i h'
      rcases h' with h' | h'
      · exact absurd (h ▸ h') hs
      · rw [← h, h']
    · exact absurd h.symm hl
  · rintro rfl
    cases l <;> first | exact absurd rfl hl | exact absurd rfl hs | exact ⟨.cubic, rfl⟩ | exact ⟨.minJerk, rfl⟩ | exact ⟨.zmp, rfl⟩ |
      exact ⟨.dcm, rfl⟩ | exact ⟨.height, rfl⟩

/-- The rest of `generateFromFootPrints`, with the trajectory generators still to come. -/
def Rest (shared : Mutex) (ms : List Mutex) (k : Code K) : Prop :=
  ∀ sh : Prop, (shared ∈ ms → ¬ sh) → TwoPhase (mutexOf shared) {.gen} sh k

theorem rest_end (shared : Mutex) (ms : List Mutex) (x : Reply K) : Rest shared ms (.release .gen (.ret x) : Code K) := by
  intro sh _
  have : ∀ r, mutexOf shared r ∉ ({.gen} : Set Mutex) \ {.gen} := by simp
  exact ⟨rfl, Or.inr (mutexOf_gen shared), this⟩

theorem rest_sub {shared : Mutex} {ms : List Mutex} {a : Bool} {l : Mutex} {r : Obj} {g : Val K r → Verdict × Val K r} {k : Code K}
    (hl : l ≠ .gen) (hp : l ≠ .planner) (hr : classMutex r = l) (hms : l ∉ ms) (h : Rest shared ms k) :
    Rest shared (l :: ms) (sub a l r g k) := by
  intro sh hsh
  unfold sub
  cases a
  · exact h sh fun hm => hsh (List.mem_cons_of_mem _ hm)
  · simp only [if_true]
    have hsh' : shared ∈ ms → ¬ (sh ∨ ∃ q, mutexOf shared q = l) := by
      intro hm
      rw [mutexOf_iff hl hp]
      rintro (h | rfl)
      · exact hsh (List.mem_cons_of_mem _ hm) h
      · exact hms hm
    refine ⟨hl, fun hq => ?_, ?_, fun v => ⟨Set.mem_insert _ _, ?_⟩⟩
    · rw [mutexOf_iff hl hp] at hq
      exact hsh (hq ▸ List.mem_cons_self)
    · unfold mutexOf
      rw [hr]
      split
      · exact Set.mem_insert _ _
      · exact Set.mem_insert_of_mem _ rfl
    · rw [insert_diff_gen hl]
      split
      · exact h _ hsh'
      · exact rest_end shared ms _ _ hsh'
      · exact rest_end shared ms _ _ hsh'

theorem twoPhase_fromFootPrints (shared : Mutex) (garbage : K) (sort : Sorter K) (f : Handle × Handle) (initTime dT : K) :
    TwoPhase (mutexOf shared) ∅ False (fromFootPrints garbage sort f initTime dT) := by
  have hg : ∀ r, classMutex r = .gen → mutexOf shared r ∈ (insert Mutex.gen ∅ : Set Mutex) := by
    intro r hr; unfold mutexOf; split <;> simp [hr]
  refine ⟨by simp, fun _ h => h, hg _ rfl, fun _ => ⟨hg _ rfl, fun m => ⟨hg _ rfl, fun c => ⟨hg _ rfl, fun o => ?_⟩⟩⟩⟩
  simp only [insert_empty_eq]
  split
  · exact rest_end shared [] _ _ (by simp)
  · exact rest_end shared [] _ _ (by simp)
  · refine ⟨by simpa using hg .attached rfl, fun a => ?_⟩
    suffices h : Rest shared [.cubic, .minJerk, .zmp, .dcm, .height] _ from h False (by simp)
    refine rest_sub (by decide) (by decide) rfl (by decide) ?_
    refine rest_sub (by decide) (by decide) rfl (by decide) ?_
    refine rest_sub (by decide) (by decide) rfl (by decide) ?_
    refine rest_sub (by decide) (by decide) rfl (by decide) ?_
    exact rest_sub (by decide) (by decide) rfl (by decide) (rest_end _ [] _)

theorem twoPhase_guarded {α : Type} {guard : Obj → Mutex} {l : Mutex} {r : Obj} (h : guard r = l) (g : Val K r → α × Val K r)
    (reply : α → Reply K) : TwoPhase guard ∅ False (guarded l r g reply) := by
  refine ⟨by simp, fun _ h => h, ?_, fun _ => ⟨Set.mem_insert _ _, Or.inr ⟨r, h⟩, ?_⟩⟩
  · rw [h]; exact Set.mem_insert _ _
  · simp

theorem twoPhase_code (garbage : K) (integ : Integrator K) (fuel : Nat) (sort : Sorter K) {shared : Mutex} {m : Method K}
    (h : Atomic shared m) : TwoPhase (mutexOf shared) ∅ False (code garbage integ fuel sort m) := by
  have hg : ∀ r, classMutex r = .gen → mutexOf shared r = .gen := by
    intro r hr; unfold mutexOf; split <;> simp [hr]
  cases m with
  | timing o =>
    have h' : unlockedTiming o = false := by cases o <;> first | rfl | exact absurd h id
    simp only [code, h', Bool.false_eq_true, if_false]
    exact twoPhase_guarded (hg _ rfl) _ _
  | planner o =>
    have h' : unlockedPlanner o = false := by cases o <;> first | rfl | exact absurd h id
    simp only [code, h', Bool.false_eq_true, if_false]
    exact twoPhase_guarded (by cases shared <;> rfl) _ _
  | getFootPrints => exact absurd h id
  | footPrint => exact absurd h id
  | getSteps => exact absurd h id
  | startWithLeft => exact absurd h id
  | generate => exact absurd h id
  | reGenerate => exact absurd h id
  | fromFootPrints l r t dT => exact twoPhase_fromFootPrints _ _ _ _ _ _
  | getOutputs => exact twoPhase_guarded (hg _ rfl) _ _
  | addCubic => exact twoPhase_guarded (hg _ rfl) _ _
  | addMinJerk => exact twoPhase_guarded (hg _ rfl) _ _
  | addZmp => exact twoPhase_guarded (hg _ rfl) _ _
  | addDcm => exact twoPhase_guarded (hg _ rfl) _ _
  | addHeight => exact twoPhase_guarded (hg _ rfl) _ _
  | _ =>
    have h' := h
    simp only [Atomic] at h'
    subst h'
    simp only [code]
    exact twoPhase_guarded (by decide) _ _

/-! ## Protection -/

theorem guarded_mono {guard : Obj → Mutex} {H H' : Set Mutex} (hH : H ⊆ H') (p : Code K) (h : Guarded guard H p) :
    Guarded guard H' p := by
  induction p generalizing H H' with
  | ret x => trivial
  | acquire l k ih => exact ih (Set.insert_subset_insert hH) h
  | release l k ih => exact ih (Set.sdiff_subset_sdiff_left hH) h
  | access r f k ih => exact ⟨hH h.1, fun v => ih v hH (h.2 v)⟩

theorem guarded_sub {a : Bool} {l : Mutex} {r : Obj} {g : Val K r → Verdict × Val K r} {k : Code K} (hl : l ≠ .gen)
    (hr : classMutex r = l) (h : Guarded classMutex {.gen} k) : Guarded classMutex {.gen} (sub a l r g k) := by
  unfold sub
  cases a
  · exact h
  · simp only [if_true]
    refine ⟨by rw [hr]; exact Set.mem_insert _ _, fun v => ?_⟩
    unfold Guarded
    rw [insert_diff_gen hl]
    split
    · exact h
    · trivial
    · trivial

theorem guarded_fromFootPrints (garbage : K) (sort : Sorter K) (f : Handle × Handle) (initTime dT : K) :
    Guarded classMutex ∅ (fromFootPrints garbage sort f initTime dT) := by
  refine ⟨Set.mem_insert _ _, fun _ => ⟨Set.mem_insert _ _, fun m => ⟨Set.mem_insert _ _, fun c => ⟨Set.mem_insert _ _, fun o => ?_⟩⟩⟩⟩
  simp only [insert_empty_eq]
  split
  · trivial
  · trivial
  · exact ⟨rfl, fun a => guarded_sub (by decide) rfl <| guarded_sub (by decide) rfl <| guarded_sub (by decide) rfl <|
      guarded_sub (by decide) rfl <| guarded_sub (by decide) rfl trivial⟩

theorem guarded_code (garbage : K) (integ : Integrator K) (fuel : Nat) (sort : Sorter K) {m : Method K} (h : Careful m) :
    Guarded classMutex ∅ (code garbage integ fuel sort m) := by
  cases m with
  | timing o =>
    have h' : unlockedTiming o = false := by cases o <;> first | rfl | exact absurd h id
    simp only [code, h', Bool.false_eq_true, if_false]
    exact ⟨Set.mem_insert _ _, fun _ => trivial⟩
  | planner o =>
    have h' : unlockedPlanner o = false := by cases o <;> first | rfl | exact absurd h id
    simp only [code, h', Bool.false_eq_true, if_false]
    exact ⟨Set.mem_insert _ _, fun _ => trivial⟩
  | getFootPrints => exact absurd h id
  | footPrint => exact absurd h id
  | getSteps => exact absurd h id
  | startWithLeft => exact absurd h id
  | generate => exact absurd h id
  | reGenerate => exact absurd h id
  | fromFootPrints l r t dT => exact guarded_fromFootPrints _ _ _ _ _
  | _ => exact ⟨Set.mem_insert _ _, fun _ => trivial⟩

/-! ## One at a time -/

@[simp] theorem alone_use {α : Type} (r : Obj) (g : Val K r → α × Val K r) (k : α → Code K) (s : State K) :
    alone (use r g k) s = alone (k (g (s r)).1) (Function.update s r (g (s r)).2) := rfl

@[simp] theorem alone_read (r : Obj) (k : Val K r → Code K) (s : State K) : alone (read r k) s = alone (k (s r)) s := by
  simp [read, alone]

/-- What a call that comes back amounts to. -/
def Matches (garbage : K) (y : Reply K × State K) : Result K → Prop
  | .done b w => y.1 = .flag b ∧ walker garbage y.2 = w
  | .ub w => y.1 = .ub w
  | .outOfFuel => y.1 = .outOfFuel

/-- The rest of `generateFromFootPrints`. -/
theorem alone_sub {a : Bool} {l : Mutex} {r : Obj} {g : Val K r → Verdict × Val K r} {k : Code K} (s : State K) :
    alone (sub a l r g k) s = if a then
      (match (g (s r)).1 with
        | .done true => alone k (Function.update s r (g (s r)).2)
        | .done false => (.flag false, Function.update s r (g (s r)).2)
        | .ub w => (.ub w, Function.update s r (g (s r)).2))
      else alone k s := by
  unfold sub
  cases a
  · rfl
  · simp only [if_true, alone, alone_use]
    split <;> simp [alone, *]

/-- The outcome of `generateFromFootPrints`. -/
def back (w₀ : Walker K) : Out (Bool × Walker K) → Result K
  | .ok (b, w) => .done b w
  | .fail => .done false w₀
  | .ub why => .ub why

theorem matches_cubic {garbage : K} {w₀ : Walker K} {A : Attached} {f : FeetSettings K → Out (Bool × FeetSettings K × Option (FeetOut K))} {k : Code K}
    {F : Walker K → Out (Bool × Walker K)} (h : ∀ s : State K, s .attached = A → Matches garbage (alone k s) (back w₀ (F (walker garbage s))))
    (s : State K) (hs : s .attached = A) :
    Matches garbage (alone (sub A.cubic .cubic .cubic (runs f) k) s) (back w₀ do
      let (ok, p) ← Plugin.run (walker garbage s).cubic f
      let w := { walker garbage s with cubic := p }
      if ok = false then .ok (false, w) else F w) := by
  have hw : (walker garbage s).cubic = if A.cubic then some (s .cubic) else none := by simp [walker, hs]
  have hw' : ∀ v, walker garbage (Function.update s .cubic v) = { walker garbage s with cubic := if A.cubic then some v else none } := by
    intro v; simp [walker, hs]
  rw [alone_sub, hw]
  cases hA : A.cubic with
  | false =>
    have := h s hs
    have e : ({ walker garbage s with cubic := none } : Walker K) = walker garbage s := by
      rw [hA] at hw; simp only [Bool.false_eq_true, if_false] at hw; rw [← hw]
    simpa [Plugin.run, Out.bind_ok, e] using this
  | true =>
    have hn : ∀ v, (Function.update s .cubic v : State K) .attached = A := by intro v; simp [hs]
    simp only [if_true, Plugin.run, runs]
    rw [hA] at hw'
    simp only [if_true] at hw'
    cases e : f (s .cubic).state with
    | fail => simp [back, Matches, hw']
    | ub w => simp [back, Matches]
    | ok x =>
      obtain ⟨b, c, r⟩ := x
      cases b with
      | false => simp [back, Matches, hw']
      | true => simpa [hw'] using h _ (hn ⟨c, r⟩)

theorem matches_minJerk {garbage : K} {w₀ : Walker K} {A : Attached} {f : FeetSettings K → Out (Bool × FeetSettings K × Option (FeetOut K))} {k : Code K}
    {F : Walker K → Out (Bool × Walker K)} (h : ∀ s : State K, s .attached = A → Matches garbage (alone k s) (back w₀ (F (walker garbage s))))
    (s : State K) (hs : s .attached = A) :
    Matches garbage (alone (sub A.minJerk .minJerk .minJerk (runs f) k) s) (back w₀ do
      let (ok, p) ← Plugin.run (walker garbage s).minJerk f
      let w := { walker garbage s with minJerk := p }
      if ok = false then .ok (false, w) else F w) := by
  have hw : (walker garbage s).minJerk = if A.minJerk then some (s .minJerk) else none := by simp [walker, hs]
  have hw' : ∀ v, walker garbage (Function.update s .minJerk v) = { walker garbage s with minJerk := if A.minJerk then some v else none } := by
    intro v; simp [walker, hs]
  rw [alone_sub, hw]
  cases hA : A.minJerk with
  | false =>
    have := h s hs
    have e : ({ walker garbage s with minJerk := none } : Walker K) = walker garbage s := by
      rw [hA] at hw; simp only [Bool.false_eq_true, if_false] at hw; rw [← hw]
    simpa [Plugin.run, Out.bind_ok, e] using this
  | true =>
    have hn : ∀ v, (Function.update s .minJerk v : State K) .attached = A := by intro v; simp [hs]
    simp only [if_true, Plugin.run, runs]
    rw [hA] at hw'
    simp only [if_true] at hw'
    cases e : f (s .minJerk).state with
    | fail => simp [back, Matches, hw']
    | ub w => simp [back, Matches]
    | ok x =>
      obtain ⟨b, c, r⟩ := x
      cases b with
      | false => simp [back, Matches, hw']
      | true => simpa [hw'] using h _ (hn ⟨c, r⟩)

theorem matches_zmp {garbage : K} {w₀ : Walker K} {A : Attached} {f : Zmp K → Out (Bool × Zmp K × Option (ZmpOut K))} {k : Code K}
    {F : Walker K → Out (Bool × Walker K)} (h : ∀ s : State K, s .attached = A → Matches garbage (alone k s) (back w₀ (F (walker garbage s))))
    (s : State K) (hs : s .attached = A) :
    Matches garbage (alone (sub A.zmp .zmp .zmp (runs f) k) s) (back w₀ do
      let (ok, p) ← Plugin.run (walker garbage s).zmp f
      let w := { walker garbage s with zmp := p }
      if ok = false then .ok (false, w) else F w) := by
  have hw : (walker garbage s).zmp = if A.zmp then some (s .zmp) else none := by simp [walker, hs]
  have hw' : ∀ v, walker garbage (Function.update s .zmp v) = { walker garbage s with zmp := if A.zmp then some v else none } := by
    intro v; simp [walker, hs]
  rw [alone_sub, hw]
  cases hA : A.zmp with
  | false =>
    have := h s hs
    have e : ({ walker garbage s with zmp := none } : Walker K) = walker garbage s := by
      rw [hA] at hw; simp only [Bool.false_eq_true, if_false] at hw; rw [← hw]
    simpa [Plugin.run, Out.bind_ok, e] using this
  | true =>
    have hn : ∀ v, (Function.update s .zmp v : State K) .attached = A := by intro v; simp [hs]
    simp only [if_true, Plugin.run, runs]
    rw [hA] at hw'
    simp only [if_true] at hw'
    cases e : f (s .zmp).state with
    | fail => simp [back, Matches, hw']
    | ub w => simp [back, Matches]
    | ok x =>
      obtain ⟨b, c, r⟩ := x
      cases b with
      | false => simp [back, Matches, hw']
      | true => simpa [hw'] using h _ (hn ⟨c, r⟩)

theorem matches_dcm {garbage : K} {w₀ : Walker K} {A : Attached} {f : Dcm K → Out (Bool × Dcm K × Option (DcmOut K))} {k : Code K}
    {F : Walker K → Out (Bool × Walker K)} (h : ∀ s : State K, s .attached = A → Matches garbage (alone k s) (back w₀ (F (walker garbage s))))
    (s : State K) (hs : s .attached = A) :
    Matches garbage (alone (sub A.dcm .dcm .dcm (runs f) k) s) (back w₀ do
      let (ok, p) ← Plugin.run (walker garbage s).dcm f
      let w := { walker garbage s with dcm := p }
      if ok = false then .ok (false, w) else F w) := by
  have hw : (walker garbage s).dcm = if A.dcm then some (s .dcm) else none := by simp [walker, hs]
  have hw' : ∀ v, walker garbage (Function.update s .dcm v) = { walker garbage s with dcm := if A.dcm then some v else none } := by
    intro v; simp [walker, hs]
  rw [alone_sub, hw]
  cases hA : A.dcm with
  | false =>
    have := h s hs
    have e : ({ walker garbage s with dcm := none } : Walker K) = walker garbage s := by
      rw [hA] at hw; simp only [Bool.false_eq_true, if_false] at hw; rw [← hw]
    simpa [Plugin.run, Out.bind_ok, e] using this
  | true =>
    have hn : ∀ v, (Function.update s .dcm v : State K) .attached = A := by intro v; simp [hs]
    simp only [if_true, Plugin.run, runs]
    rw [hA] at hw'
    simp only [if_true] at hw'
    cases e : f (s .dcm).state with
    | fail => simp [back, Matches, hw']
    | ub w => simp [back, Matches]
    | ok x =>
      obtain ⟨b, c, r⟩ := x
      cases b with
      | false => simp [back, Matches, hw']
      | true => simpa [hw'] using h _ (hn ⟨c, r⟩)

theorem matches_height {garbage : K} {w₀ : Walker K} {A : Attached} {f : HeightSettings K → Out (Bool × HeightSettings K × Option (List (Motion K)))} {k : Code K}
    {F : Walker K → Out (Bool × Walker K)} (h : ∀ s : State K, s .attached = A → Matches garbage (alone k s) (back w₀ (F (walker garbage s))))
    (s : State K) (hs : s .attached = A) :
    Matches garbage (alone (sub A.height .height .height (runs f) k) s) (back w₀ do
      let (ok, p) ← Plugin.run (walker garbage s).height f
      let w := { walker garbage s with height := p }
      if ok = false then .ok (false, w) else F w) := by
  have hw : (walker garbage s).height = if A.height then some (s .height) else none := by simp [walker, hs]
  have hw' : ∀ v, walker garbage (Function.update s .height v) = { walker garbage s with height := if A.height then some v else none } := by
    intro v; simp [walker, hs]
  rw [alone_sub, hw]
  cases hA : A.height with
  | false =>
    have := h s hs
    have e : ({ walker garbage s with height := none } : Walker K) = walker garbage s := by
      rw [hA] at hw; simp only [Bool.false_eq_true, if_false] at hw; rw [← hw]
    simpa [Plugin.run, Out.bind_ok, e] using this
  | true =>
    have hn : ∀ v, (Function.update s .height v : State K) .attached = A := by intro v; simp [hs]
    simp only [if_true, Plugin.run, runs]
    rw [hA] at hw'
    simp only [if_true] at hw'
    cases e : f (s .height).state with
    | fail => simp [back, Matches, hw']
    | ub w => simp [back, Matches]
    | ok x =>
      obtain ⟨b, c, r⟩ := x
      cases b with
      | false => simp [back, Matches, hw']
      | true => simpa [hw'] using h _ (hn ⟨c, r⟩)

theorem matches_end {garbage : K} {w₀ : Walker K} (s : State K) :
    Matches garbage (alone (.release .gen (.ret (.flag true)) : Code K) s) (back w₀ (.ok (true, walker garbage s))) :=
  ⟨rfl, rfl⟩

theorem matches_fromFootPrints (garbage : K) (w₀ : Walker K) (sort : Sorter K) (f : Handle × Handle) (initTime dT : K) (s : State K) :
    Matches garbage (alone (fromFootPrints garbage sort f initTime dT) s)
      (back w₀ ((walker garbage s).generateFromFootPrints (s .steps f.1) (s .steps f.2) initTime dT (sort (s .steps f.1) (s .steps f.2)))) := by
  set o := Gen.outputsAfter (s .cfg) (s .steps f.1) (s .steps f.2) initTime dT (sort (s .steps f.1) (s .steps f.2)) (s .outputs) with ho
  set s' : State K := Function.update (Function.update s .feet f) .outputs o with hs'
  have hw : ({ walker garbage s with left := s .steps f.1, right := s .steps f.2, outputs := o } : Walker K) = walker garbage s' := by
    simp [walker, hs']
  have hgen : (walker garbage s).generateFromFootPrints (s .steps f.1) (s .steps f.2) initTime dT (sort (s .steps f.1) (s .steps f.2)) =
      match Gen.timeline (s .cfg) (s .steps f.1) (s .steps f.2) initTime dT (sort (s .steps f.1) (s .steps f.2)) with
      | .ok (ordered, t) => (walker garbage s').trajectories initTime dT ordered t
      | .fail => .ok (false, walker garbage s')
      | .ub why => .ub why := by
    rw [← hw]; rfl
  rw [hgen]
  unfold fromFootPrints
  simp only [alone, alone_use, alone_read]
  have e1 : (Function.update s .feet f : State K) .steps = s .steps := by simp
  have e2 : (Function.update s .feet f : State K) .cfg = s .cfg := by simp
  have e3 : (Function.update s .feet f : State K) .outputs = s .outputs := by simp
  rw [e1, e2, e3, ← ho, ← hs']
  clear hgen hw
  generalize Gen.timeline (s .cfg) (s .steps f.1) (s .steps f.2) initTime dT (sort (s .steps f.1) (s .steps f.2)) = tl
  match tl with
  | .fail => simp [alone, back, Matches]
  | .ub w => simp [alone, back, Matches]
  | .ok (ordered, t) =>
    have hl : (walker garbage s').left = s .steps f.1 := by simp [walker, hs']
    have hr : (walker garbage s').right = s .steps f.2 := by simp [walker, hs']
    have hc : (walker garbage s').cfg = s .cfg := by simp [walker, hs']
    let F5 : Walker K → Out (Bool × Walker K) := fun w => do
      let (ok, p) ← Plugin.run w.height (runHeight dT t)
      let w := { w with height := p }
      if ok = false then .ok (false, w) else .ok (true, w)
    let F4 : Walker K → Out (Bool × Walker K) := fun w => do
      let (ok, p) ← Plugin.run w.dcm (runDcm (s .cfg) initTime dT (s .steps f.1) (s .steps f.2) ordered t)
      let w := { w with dcm := p }
      if ok = false then .ok (false, w) else F5 w
    let F3 : Walker K → Out (Bool × Walker K) := fun w => do
      let (ok, p) ← Plugin.run w.zmp (runZmp (s .cfg) initTime dT (s .steps f.1) (s .steps f.2) ordered t)
      let w := { w with zmp := p }
      if ok = false then .ok (false, w) else F4 w
    let F2 : Walker K → Out (Bool × Walker K) := fun w => do
      let (ok, p) ← Plugin.run w.minJerk (runMinJerk dT (s .steps f.1) (s .steps f.2) t)
      let w := { w with minJerk := p }
      if ok = false then .ok (false, w) else F3 w
    have h5 := fun (s : State K) (hA : s .attached = s' .attached) => matches_height (garbage := garbage) (w₀ := w₀) (A := s' .attached)
      (f := runHeight dT t) (F := fun w => .ok (true, w)) (fun s _ => matches_end s) s hA
    have h4 := matches_dcm (F := F5) (f := runDcm (s .cfg) initTime dT (s .steps f.1) (s .steps f.2) ordered t) h5
    have h3 := matches_zmp (F := F4) (f := runZmp (s .cfg) initTime dT (s .steps f.1) (s .steps f.2) ordered t) h4
    have h2 := matches_minJerk (F := F3) (f := runMinJerk dT (s .steps f.1) (s .steps f.2) t) h3
    have h1 := matches_cubic (F := F2) (f := runCubic garbage dT (s .steps f.1) (s .steps f.2) t) h2 s' rfl
    simp only [alone_read]
    have htr : (walker garbage s').trajectories initTime dT ordered t = (do
        let (ok, p) ← Plugin.run (walker garbage s').cubic (runCubic garbage dT (s .steps f.1) (s .steps f.2) t)
        let w := { walker garbage s' with cubic := p }
        if ok = false then .ok (false, w) else F2 w) := by
      unfold trajectories
      simp only [hl, hr, hc]
      refine congrArg (bind _) (funext fun x => ?_)
      obtain ⟨_ | _, p⟩ := x
      · rfl
      refine congrArg (bind _) (funext fun x => ?_)
      obtain ⟨_ | _, p⟩ := x
      · rfl
      refine congrArg (bind _) (funext fun x => ?_)
      obtain ⟨_ | _, p⟩ := x
      · rfl
      refine congrArg (bind _) (funext fun x => ?_)
      obtain ⟨_ | _, p⟩ := x
      · rfl
      refine congrArg (bind _) (funext fun x => ?_)
      obtain ⟨_ | _, p⟩ := x
      · rfl
      · rfl
    rw [htr]
    exact h1

theorem matches_fromMembers (garbage : K) (sort : Sorter K) (initTime dT : K) (s : State K) :
    Matches garbage (alone (fromMembers garbage sort initTime dT) s) ((walker garbage s).fromMembers initTime dT sort) := by
  have h := matches_fromFootPrints garbage (walker garbage s) sort (s .feet) initTime dT s
  have e : (walker garbage s).fromMembers initTime dT sort = back (walker garbage s) ((walker garbage s).generateFromFootPrints
      (s .steps (s .feet).1) (s .steps (s .feet).2) initTime dT (sort (s .steps (s .feet).1) (s .steps (s .feet).2))) := by
    unfold Walker.fromMembers back
    rfl
  rw [e]
  simpa [fromMembers] using h

theorem walker_write {garbage : K} {s : State K} (hne : (s .feet).1 ≠ (s .feet).2) (p : Planner K) (l r : FootPrint K) :
    walker garbage (Function.update (Function.update s .planner p) .steps (write (s .feet) l r (s .steps))) =
      { walker garbage s with planner := p, left := l, right := r } := by
  simp [walker, write, hne]

theorem matches_generate (garbage : K) (integ : Integrator K) (fuel : Nat) (sort : Sorter K) (initTime dT endTime : K) (s : State K)
    (hne : (s .feet).1 ≠ (s .feet).2) :
    Matches garbage (alone (generate garbage integ fuel sort initTime dT endTime) s)
      ((walker garbage s).generate integ fuel sort initTime dT endTime) := by
  unfold generate Walker.generate plan
  simp only [alone, alone_use, alone_read]
  have e : (walker garbage s).planner.computeNewSteps integ fuel (walker garbage s).left (walker garbage s).right initTime endTime =
      (s .planner).computeNewSteps integ fuel (s .steps (s .feet).1) (s .steps (s .feet).2) initTime endTime := rfl
  rw [e]
  generalize (s .planner).computeNewSteps integ fuel (s .steps (s .feet).1) (s .steps (s .feet).2) initTime endTime = res
  match res with
  | .ub w => simp [alone, Matches, Result.next]
  | .outOfFuel => simp [alone, Matches, Result.next]
  | .done b p l r =>
    have hw := walker_write (garbage := garbage) hne p l r
    have e2 : (Function.update s .planner p : State K) .steps = s .steps := by simp
    simp only [alone_use, alone, e2]
    cases b
    · simp only [Bool.false_eq_true, if_false, alone, Matches, Result.next, true_and]
      exact hw
    · simp only [if_true, Result.next]
      rw [← hw]
      exact matches_fromMembers _ _ _ _ _

theorem matches_reGenerate (garbage : K) (integ : Integrator K) (fuel : Nat) (sort : Sorter K) (initTime dT endTime : K)
    (q : Gen.Request K) (s : State K) (hne : (s .feet).1 ≠ (s .feet).2) :
    Matches garbage (alone (reGenerate garbage integ fuel sort initTime dT endTime q) s)
      ((walker garbage s).reGenerate integ fuel sort initTime dT endTime q) := by
  unfold reGenerate Walker.reGenerate Walker.replan
  simp only [alone, alone_use, alone_read]
  have hv : (walker garbage s).dcmVelocity = if (s .attached).dcm then (match (s .dcm).state.initial with
      | none => .unset
      | some v => .known v.2) else .absent := by
    unfold dcmVelocity
    cases h : (s .attached).dcm
    · simp [walker, h]
    · simp only [walker, h, if_true]
      cases (s .dcm).state.initial <;> rfl
  have e : ∀ v, Gen.replan (walker garbage s).planner integ fuel v (walker garbage s).left (walker garbage s).right initTime endTime q =
      Gen.replan (s .planner) integ fuel v (s .steps (s .feet).1) (s .steps (s .feet).2) initTime endTime q := fun v => rfl
  rw [e, hv]
  have key : ∀ v, Matches garbage (alone
    (use .planner (fun p =>
      match Gen.replan p integ fuel v (s .steps (s .feet).1) (s .steps (s .feet).2) initTime endTime q with
      | .done b p l r prev => (Gen.ReplanResult.done b p l r prev, p)
      | r => (r, p)) fun r =>
    .release .planner <|
    match r with
    | .done b _ l r prev =>
      use .steps (fun m => ((), write (s .feet) l r m)) fun _ =>
      let last : Code K := .release .gen (if b then fromMembers garbage sort initTime dT else .ret (.flag false))
      match prev with
      | some st =>
        if (s .attached).zmp then
          .acquire .zmp <|
          use .zmp (fun z => ((), { z with state := z.state.setPreviousSteps st.1 st.2 })) fun _ =>
          .release .zmp last
        else last
      | none => last
    | .ub w => .release .gen (.ret (.ub w))
    | .outOfFuel => .release .gen (.ret .outOfFuel) : Code K) s)
    ((match Gen.replan (s .planner) integ fuel v (s .steps (s .feet).1) (s .steps (s .feet).2) initTime endTime q with
      | .done b p l r prev =>
        Result.done b { walker garbage s with planner := p, left := l, right := r,
                                              zmp := match prev with
                                                | some st => Plugin.set (walker garbage s).zmp fun z => z.setPreviousSteps st.1 st.2
                                                | none => (walker garbage s).zmp }
      | .ub why => .ub why
      | .outOfFuel => .outOfFuel).next fun w => w.fromMembers initTime dT sort) := by
    intro v
    rw [alone_use]
    generalize Gen.replan (s .planner) integ fuel v (s .steps (s .feet).1) (s .steps (s .feet).2) initTime endTime q = res
    match res with
    | .ub w => simp [alone, Matches, Result.next]
    | .outOfFuel => simp [alone, Matches, Result.next]
    | .done b p l r prev =>
      have e2 : (Function.update s .planner p : State K) .steps = s .steps := by simp
      simp only [alone_use, alone, e2]
      have hw := walker_write (garbage := garbage) hne p l r
      have hlast : ∀ s' : State K, Matches garbage (alone (.release .gen (if b then fromMembers garbage sort initTime dT else .ret (.flag false))) s')
          ((Result.done b (walker garbage s')).next fun w => w.fromMembers initTime dT sort) := by
        intro s'
        cases b
        · exact ⟨rfl, rfl⟩
        · exact matches_fromMembers _ _ _ _ _
      cases prev with
      | none =>
        have := hlast (Function.update (Function.update s .planner p) .steps (write (s .feet) l r (s .steps)))
        rw [hw] at this
        exact this
      | some st =>
        dsimp only
        cases hz : (s .attached).zmp with
        | false =>
          have := hlast (Function.update (Function.update s .planner p) .steps (write (s .feet) l r (s .steps)))
          rw [hw] at this
          have ez : Plugin.set (walker garbage s).zmp (fun z => z.setPreviousSteps st.1 st.2) = (walker garbage s).zmp := by
            simp [walker, hz, Plugin.set]
          rw [ez]
          simpa using this
        | true =>
          simp only [if_true, alone, alone_use]
          have := hlast (Function.update (Function.update (Function.update s .planner p) .steps (write (s .feet) l r (s .steps))) .zmp
            { (s .zmp) with state := (s .zmp).state.setPreviousSteps st.1 st.2 })
          have ew : walker garbage (Function.update (Function.update (Function.update s .planner p) .steps (write (s .feet) l r (s .steps))) .zmp
            { (s .zmp) with state := (s .zmp).state.setPreviousSteps st.1 st.2 }) =
              { walker garbage s with planner := p, left := l, right := r,
                                      zmp := Plugin.set (walker garbage s).zmp fun z => z.setPreviousSteps st.1 st.2 } := by
            simp [walker, write, hne, Plugin.set, hz]
          rw [ew] at this
          exact this
  cases hd : (s .attached).dcm with
  | false => simp only [Bool.false_eq_true, if_false]; exact key _
  | true =>
    simp only [if_true, alone, alone_read]
    cases (s .dcm).state.initial <;> exact key _

end Uni.Threads
