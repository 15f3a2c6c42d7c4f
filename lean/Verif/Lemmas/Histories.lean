import Verif.Lemmas.Tidiness
import Verif.Lemmas.Passes

/-! Helper lemmas: the registry after any sequence of calls. -/

namespace PyOGRe
open Spec
variable {K : Type} {w w' : World K} {α β : Type}

theorem sound_bind {m : PyM K α} {f : α → PyM K β} (hm : Sound (m w).2) (hf : ∀ a w', Sound w' → Sound (f a w').2) :
    Sound ((m >>= f) w).2 := by
  rw [PyM.bind_apply]
  rcases h : m w with ⟨r, w'⟩
  rw [h] at hm
  cases r with
  | ok a => exact hf a w' hm
  | error e => exact hm

theorem sp_sound {m : PyM K α} {Q : α → Prop} (h : Sp 0 m Q) (hs : Sound w) : Sound (m w).2 :=
  (h w (Nat.zero_le _)).2.1 hs

theorem sound_tryDelete (hs : Sound w) {t : Id'} (ht : t ∈ w.instances) :
    ∃ w', tryDelete t w = (.ok (), w') ∧ Sound w' := by
  by_cases hu : Used w t
  · exact ⟨w, tryDelete_used w t hs ht hu, hs⟩
  · exact ⟨_, tryDelete_unused w t hs ht hu, sound_delete hs t⟩

/-- A loop that skips objects in use never raises. -/
theorem deleteFrom_returns (sel : Obj K → Bool) (fuel : Nat) : ∀ (i : Nat) (w : World K), Sound w →
    ∃ w', deleteFrom sel tryDelete fuel i w = (.ok (), w') ∧ Sound w' := by
  induction fuel with
  | zero => exact fun i w hs => ⟨w, rfl, hs⟩
  | succ fuel ih =>
    intro i w hs
    unfold deleteFrom
    rw [PyM.bind_apply, PyM.world_apply]
    dsimp only
    cases hi : w.instances[i]? with
    | none => exact ⟨w, rfl, hs⟩
    | some t =>
      have ht : t ∈ w.instances := List.mem_of_getElem? hi
      obtain ⟨o, ho, ha⟩ := hs.inUse t ht
      dsimp only
      rw [PyM.bind_apply, getObj_ok ho ha]
      dsimp only
      rw [PyM.bind_apply]
      obtain ⟨w1, h1, hs1⟩ : ∃ w1, PyM.onlyIf (sel o) (tryDelete t) w = (.ok (), w1) ∧ Sound w1 := by
        unfold PyM.onlyIf
        split_ifs
        · exact sound_tryDelete hs ht
        · exact ⟨w, rfl, hs⟩
      rw [h1]
      exact ih (i + 1) w1 hs1

theorem passes_return (sel : Obj K → Bool) (k : Nat) : ∀ w : World K, Sound w →
    ∃ w', timesDo (deletePass sel tryDelete) k w = (.ok (), w') ∧ Sound w' := by
  induction k with
  | zero => exact fun w hs => ⟨w, rfl, hs⟩
  | succ k ih =>
    intro w hs
    obtain ⟨w1, h1, hs1⟩ := deleteFrom_returns sel w.instances.length 0 w hs
    obtain ⟨w2, h2, hs2⟩ := ih w1 hs1
    refine ⟨w2, ?_, hs2⟩
    unfold timesDo
    rw [PyM.bind_apply]
    unfold deletePass
    rw [h1]
    exact h2

theorem clear_returns (hs : Sound w) : ∃ w', clearInstances w = (.ok (), w') ∧ w'.instances = [] := by
  obtain ⟨w1, h1, hs1⟩ := passes_return (hasName "Result") 4 w hs
  obtain ⟨w2, h2, hs2⟩ := passes_return (fun _ => true) 4 w1 hs1
  refine ⟨{ w2 with instances := [] }, ?_, rfl⟩
  unfold clearInstances deleteResults
  rw [PyM.bind_apply, h1]
  refine (PyM.bind_apply _ _ _).trans ?_
  rw [h2]

section
variable {n : Nat} [CommRing K] {E : Engine K}

theorem Sp.any {m : PyM K α} {Q : α → Prop} (h : Sp n m Q) : Sp n m fun _ => True := Sp.mono h fun _ _ => trivial

theorem Sp.keys {m : PyM K α} {Q : α → Prop} (h : Keys 0 (fun _ => True) m Q) : Sp n m fun _ => True :=
  Sp.steady fun w => (h w fun _ _ _ => trivial).1

theorem Sp.requireTensor (t : Id') : Sp n (K := K) (requireTensor t) fun _ => True := Sp.steady (by
  intro w
  unfold PyOGRe.requireTensor
  split_ifs <;> exact Frame.refl w)

theorem Sp.requireMetric (m : Id') : Sp n (K := K) (requireMetric m) fun _ => True := by
  unfold PyOGRe.requireMetric
  exact Sp.bind (Sp.isMetric _) fun _ _ => Sp.ite Sp.raise (Sp.done _)

theorem Sp.requireCoords (c : Option Id') : Sp n (K := K) (requireCoords c) fun _ => True := by
  unfold PyOGRe.requireCoords
  refine Sp.bind (P := fun _ => True) ?_ fun _ _ => Sp.ite Sp.raise (Sp.done _)
  cases c with
  | none => exact Sp.done _
  | some c => exact Sp.isCoordinates _

theorem Sp.productOf (a : Id') (la : List Sym) (b : Id') (lb : List Sym) :
    Sp n (productOf E a la b lb) fun _ => True :=
  Sp.bind (Sp.calcInit _ _) fun _ _ => Sp.bind (Sp.calcInit _ _) fun _ _ => Sp.matmulTensors _ _

theorem Sp.partialOf (d : Sym) (t : Id') (labels : List Sym) : Sp n (partialOf E d t labels) fun _ => True :=
  Sp.bind (Sp.calcInit _ _) fun _ _ => Sp.matmulPartial _ _ _

theorem Sp.unlessNamed {name : String} {p : PyM K Id'} (hp : Sp n p fun _ => True) :
    Sp n (unlessNamed name p) fun _ => True := by
  unfold PyOGRe.unlessNamed
  refine Sp.bind (P := fun _ => True) (Sp.steady fun w => Frame.refl w) fun r _ => ?_
  cases r with
  | none => exact hp
  | some t => exact Sp.done _

theorem Sp.storeResult (name : String) (comps : Arr K) (m c : Id') (ix : List Int) (symbol : String) (t : Id') :
    Sp 0 (storeResult name comps m c ix symbol t) fun _ => True :=
  Sp.bind (Sp.newTensor _ _ _ _ _ _ _) fun _ _ => Sp.bind Sp.deletePass fun _ _ =>
    Sp.bind (Sp.delete (Nat.zero_le _)) fun _ _ => Sp.done _

theorem Sp.deleteEach (l : List Id') : Sp 0 (K := K) (l.forM deleteObj) fun _ => True := by
  induction l with
  | nil => exact Sp.done _
  | cons t l ih => exact Sp.bind (Sp.delete (Nat.zero_le _)) fun _ _ => ih

theorem Sp.storeCurve (kind : Kind) (name : String) (comps : Arr K) (m c : Id') (ix : List Int) (symbol : String)
    (l : List Id') : Sp 0 (storeCurve kind name comps m c ix symbol l) fun _ => True :=
  Sp.bind (Sp.newTensor _ _ _ _ _ _ _) fun _ _ => Sp.bind Sp.deletePass fun _ _ =>
    Sp.bind (Sp.deleteEach _) fun _ _ => Sp.done _

theorem Sp.curveComponents {C : Curves K} (t : Id') (c : Option Id') (ix : Option (List Int)) :
    Sp n (curveComponents E C t c ix) fun _ => True :=
  Sp.steady fun w => (Keys.curveComponents (t := t) (S := fun _ => True) c (fun _ _ => trivial) ix w fun _ _ _ => trivial).1

theorem Sp.lowerComponents (t : Id') (c : Option Id') : Sp n (lowerComponents E t c) fun _ => True :=
  Sp.steady fun w => (Keys.lowerComponents (t := t) (S := fun _ => True) c (fun _ _ => trivial) w fun _ _ _ => trivial).1

theorem Sp.curveChangeCoords {C : Curves K} (t c : Id') : Sp 0 (curveChangeCoords E C t c) fun _ => True := by
  unfold PyOGRe.curveChangeCoords
  refine Sp.bind (Sp.isCoordinates _) fun b _ => Sp.ite Sp.raise (Sp.bind (Sp.getObj _) fun o _ =>
    Sp.ite (Sp.done _) (Sp.bind (Sp.getObj _) fun oc _ => Sp.ite (Sp.bind (Sp.getObj _) fun _ _ => Sp.raise) ?_))
  exact Sp.bind (Sp.keys (Keys.tensorCheck trivial _)) fun _ _ =>
    Sp.bind (Sp.onlyIf (Sp.keys (Keys.curveTransform trivial _))) fun _ _ => Sp.modify (Nat.zero_le _) fun _ => rfl

theorem Sp.unlessCurve {C : Curves K} {sel : Kind → Bool} {name : String} {c : Id'} {p : PyM K Id'}
    (hp : Sp 0 p fun _ => True) : Sp 0 (unlessCurve E C sel name c p) fun _ => True := by
  unfold PyOGRe.unlessCurve
  refine Sp.bind Sp.world fun w0 _ => ?_
  split
  · exact Sp.bind (Sp.getObj _) fun _ _ => Sp.bind (Sp.onlyIf (Sp.curveChangeCoords _ _)) fun _ _ => Sp.done _
  · exact hp

variable [DecidableEq K]

/-- One step after the other. -/
macro "steps" : tactic => `(tactic| repeat' (first
  | with_reducible refine Sp.bind (P := fun _ => True) ?_ fun _ _ => ?_
  | with_reducible exact Sp.done _
  | with_reducible exact Sp.raise
  | with_reducible exact Sp.lift _
  | with_reducible exact Sp.getObj _
  | with_reducible exact Sp.getComponents _ _ _
  | with_reducible exact Sp.curveComponents _ _ _
  | with_reducible exact Sp.calcInit _ _
  | with_reducible exact Sp.productOf _ _ _ _
  | with_reducible exact Sp.partialOf _ _ _
  | with_reducible exact Sp.matmulTensors _ _
  | with_reducible exact Sp.calcAddObj _ _
  | with_reducible exact Sp.calcSub _ _
  | with_reducible exact Sp.calcMul _ _
  | with_reducible exact Sp.any (Sp.newTemp _ _ _ _ _)
  | with_reducible exact Sp.any (Sp.calcResult _ _ _ _)
  | with_reducible exact Sp.storeResult _ _ _ _ _ _ _
  | with_reducible exact Sp.storeCurve _ _ _ _ _ _ _ _
  | with_reducible exact Sp.requireMetric _
  | with_reducible exact Sp.requireTensor _
  | with_reducible exact Sp.requireCoords _
  | with_reducible assumption
  | with_reducible refine Sp.unlessNamed ?_
  | with_reducible refine Sp.unlessCurve ?_))

variable [Algebra ℚ K]

theorem Sp.calcRiemann (m : Id') : Sp 0 (calcRiemann E m) fun _ => True := by
  have h := Sp.calcChristoffel (n := 0) (E := E) m
  unfold PyOGRe.calcRiemann computeRiemann
  steps

theorem Sp.calcRicci (m : Id') : Sp 0 (calcRicci E m) fun _ => True := by
  have h := Sp.calcRiemann (E := E) m
  unfold PyOGRe.calcRicci computeRicci
  steps

theorem Sp.calcScalar (m : Id') : Sp 0 (calcScalar E m) fun _ => True := by
  have h := Sp.calcRicci (E := E) m
  unfold PyOGRe.calcScalar computeScalar
  steps

theorem Sp.calcEinstein (m : Id') : Sp 0 (calcEinstein E m) fun _ => True := by
  have h := Sp.calcRicci (E := E) m
  have h' := Sp.calcScalar (E := E) m
  unfold PyOGRe.calcEinstein computeEinstein
  steps

theorem Sp.computeWeyl (m : Id') (k : Nat) (a r s : Id') : Sp 0 (computeWeyl E m k a r s) fun _ => True := by
  unfold PyOGRe.computeWeyl
  steps

theorem Sp.calcWeyl (m : Id') : Sp 0 (calcWeyl E m) fun _ => True := by
  have h := Sp.calcRiemann (E := E) m
  have h' := Sp.calcRicci (E := E) m
  have h'' := Sp.calcScalar (E := E) m
  have k := fun k a r s => Sp.computeWeyl (E := E) m k a r s
  unfold PyOGRe.calcWeyl
  steps
  exact k _ _ _ _

theorem Sp.calcNormSquared (t : Id') : Sp 0 (calcNormSquared E t) fun _ => True := by
  unfold PyOGRe.calcNormSquared
  steps

theorem Sp.calcLagrangian {C : Curves K} (m : Id') (c : Option Id') : Sp 0 (calcLagrangian E C m c) fun _ => True := by
  unfold PyOGRe.calcLagrangian computeLagrangian
  steps

theorem Sp.calcGeodesicLagrangian {C : Curves K} (m : Id') (c : Option Id') :
    Sp 0 (calcGeodesicLagrangian E C m c) fun _ => True := by
  have h := fun c => Sp.calcLagrangian (E := E) (C := C) m c
  unfold PyOGRe.calcGeodesicLagrangian computeGeodesicLagrangian
  steps
  exact h _

theorem Sp.calcGeodesicInactive {C : Curves K} (m : Id') (c : Option Id') :
    Sp 0 (calcGeodesicInactive E C m c) fun _ => True := by
  have h := fun c => Sp.calcLagrangian (E := E) (C := C) m c
  unfold PyOGRe.calcGeodesicInactive computeGeodesicInactive
  steps
  exact h _

theorem Sp.calcGeodesicChristoffel {C : Curves K} (m : Id') (c : Option Id') :
    Sp 0 (calcGeodesicChristoffel E C m c) fun _ => True := by
  have h := Sp.calcChristoffel (n := 0) (E := E) m
  unfold PyOGRe.calcGeodesicChristoffel computeGeodesicChristoffel
  steps

theorem Sp.computeGeodesicTime {C : Curves K} (m c : Id') : Sp 0 (computeGeodesicTime E C m c) fun _ => True := by
  have h := Sp.calcChristoffel (n := 0) (E := E) m
  unfold PyOGRe.computeGeodesicTime
  steps

theorem Sp.calcGeodesicTime {C : Curves K} (m : Id') (c : Option Id') :
    Sp 0 (calcGeodesicTime E C m c) fun _ => True := by
  have h := fun c => Sp.computeGeodesicTime (E := E) (C := C) m c
  unfold PyOGRe.calcGeodesicTime
  steps
  exact h _

theorem Sp.newMetric (name : Arg String) (comps : Arg (Arr K)) (c : Id') (ix : IndicesArg) (symbol : Arg String) :
    Sp n (newMetric E name comps c ix symbol) fun _ => True := by
  unfold PyOGRe.newMetric
  refine Sp.bind (Sp.lift _) fun _ _ => Sp.bind (P := fun _ => True) ?_ fun i _ => Sp.bind (Sp.getObj _) fun o _ =>
    Sp.bind (Sp.readComps _ _ _) fun _ _ => Sp.bind (P := fun _ => True) (Sp.steady (Steady.writeComps _ _ _ _)) fun _ _ =>
    Sp.bind (Sp.readComps _ _ _) fun _ _ => Sp.bind (P := fun _ => True) (Sp.steady (Steady.writeComps _ _ _ _)) fun _ _ => ?_
  · unfold newBaseTensor
    exact Sp.bind (Sp.isCoordinates _) fun b _ => Sp.ite Sp.raise (Sp.bind (Sp.getObj _) fun _ _ =>
      Sp.bind (Sp.lift _) fun _ _ => Sp.mono (Sp.register fun _ => rfl) fun _ _ => trivial)
  · cases ix with
    | none => exact Sp.raise
    | other => exact Sp.raise
    | tuple l =>
      exact Sp.bind (Sp.readComps _ _ _) fun _ _ => Sp.bind (Sp.lift _) fun _ _ =>
        Sp.bind (P := fun _ => True) (Sp.steady (Steady.writeComps _ _ _ _)) fun _ _ => Sp.pure trivial

theorem Sp.transformation (c c' : Id') (rules : Option (List (Option (Sym × K)))) :
    Sp 0 (addCoordTransformation c c' rules) fun _ => True := by
  unfold addCoordTransformation
  refine Sp.bind (Sp.isCoordinates _) fun b _ => Sp.ite Sp.raise (Sp.ite Sp.raise (Sp.bind (Sp.getObj _) fun o _ => ?_))
  cases rules with
  | none => exact Sp.bind (P := fun _ => True) (Sp.steady (Steady.lookup _ _)) fun _ _ => Sp.modify (Nat.zero_le _) fun _ => rfl
  | some r => exact Sp.modify (Nat.zero_le _) fun _ => rfl

theorem Sp.forEach {f : α → PyM K Unit} (l : List α) (h : ∀ a, Sp n (f a) fun _ => True) :
    Sp n (forEach f l) fun _ => True := by
  induction l with
  | nil => exact Sp.done _
  | cons a l ih => exact Sp.bind (h a) fun _ _ => ih

theorem Sp.mapEach {f : α → PyM K β} (l : List α) (h : ∀ a, Sp n (f a) fun _ => True) :
    Sp n (mapEach f l) fun _ => True := by
  induction l with
  | nil => exact Sp.done _
  | cons a l ih => exact Sp.bind (h a) fun _ _ => Sp.bind ih fun _ _ => Sp.done _

theorem Sp.firstNamed (name : Option String) : Sp n (K := K) (firstNamed name) fun _ => True :=
  Sp.steady fun w => Frame.refl w

theorem Sp.resolve (r : Option Ref) : Sp n (K := K) (resolve r) fun _ => True := by
  unfold PyOGRe.resolve
  split
  · refine Sp.bind (Sp.firstNamed _) fun c _ => ?_
    cases c <;> exact Sp.done _
  · exact Sp.done _

theorem Sp.importCoordinates {I : Importer K} (x : Import K) (l : List (Ref × Val K)) :
    Sp n (importCoordinates I x l) fun _ => True :=
  Sp.bind (Sp.lift _) fun _ _ => Sp.bind (Sp.lift _) fun _ _ => Sp.bind (Sp.lift _) fun _ _ =>
    Sp.any (Sp.register fun _ => rfl)

theorem Sp.importTensor (x : Import K) : Sp n (importTensor E x) fun _ => True := by
  unfold PyOGRe.importTensor
  refine Sp.ite Sp.raise ?_
  split
  · exact Sp.newMetric _ _ _ _ _
  · exact Sp.raise
  · exact Sp.any (Sp.newTensor _ _ _ _ _ _ _)
  · exact Sp.raise

theorem Sp.importTrans {I : Importer K} (x : Import K) : Sp 0 (importTrans I x) fun _ => True := by
  unfold PyOGRe.importTrans
  refine Sp.bind Sp.world fun w0 _ => ?_
  cases x.name with
  | other => exact Sp.done _
  | val name =>
    refine Sp.forEach _ fun i => Sp.forEach _ fun p => Sp.bind (P := fun _ => True) ?_ fun c _ => ?_
    · cases p.1 with
      | obj i => exact Sp.done _
      | name s => exact Sp.firstNamed _
    · cases c with
      | none => exact Sp.raise
      | some c => exact Sp.bind (Sp.lift _) fun _ _ => Sp.transformation _ _ _

theorem Sp.importFromVal {I : Importer K} (v : Val K) : Sp n (importFromVal E I v) fun _ => True := by
  unfold PyOGRe.importFromVal
  refine Sp.bind Sp.world fun w0 _ => Sp.bind (Sp.lift _) fun l _ => ?_
  cases l with
  | nil => exact Sp.raise
  | cons x l =>
    dsimp only
    cases x.coords with
    | none => exact Sp.importCoordinates _ _
    | some r =>
      refine Sp.bind (P := fun _ => True) ?_ fun c _ => ?_
      · cases r with
        | obj i => exact Sp.done _
        | name s => exact Sp.firstNamed _
      · cases c with
        | none => exact Sp.raise
        | some c => exact Sp.importTensor _

theorem Sp.importAllFromVal {I : Importer K} (v : Val K) : Sp 0 (importAllFromVal E I v) fun _ => True := by
  unfold PyOGRe.importAllFromVal
  refine Sp.bind Sp.world fun w0 _ => Sp.bind (Sp.lift _) fun l _ => ?_
  refine Sp.bind (Sp.forEach _ fun x => Sp.bind (Sp.importCoordinates _ _) fun _ _ => Sp.done _) fun _ _ => ?_
  refine Sp.bind (Sp.mapEach _ fun x => Sp.bind (Sp.resolve _) fun _ _ => Sp.done _) fun l _ => ?_
  refine Sp.bind (Sp.forEach _ fun x => Sp.importTrans _) fun _ _ => Sp.bind (Sp.forEach _ fun x => ?_) fun _ _ => ?_
  · split
    · exact Sp.raise
    · exact Sp.done _
  refine Sp.bind (Sp.forEach _ fun x => Sp.bind (Sp.importTensor _) fun _ _ => Sp.done _) fun _ _ => ?_
  refine Sp.bind (Sp.mapEach _ fun x => Sp.bind (Sp.resolve _) fun m _ => ?_) fun l _ => ?_
  · split
    · exact Sp.raise
    · exact Sp.done _
  exact Sp.forEach _ fun x => Sp.bind (Sp.importTensor _) fun _ _ => Sp.done _

end

section
variable [CommRing K] [DecidableEq K] [Algebra ℚ K] {E : Engine K}

/-- Registered objects are never deleted, whatever a user does. -/
theorem sound_call (letters : List Sym) (c : Call K) (hs : Sound w) : Sound (c.run E letters w) := by
  have hm : ∀ (i : Id') (u : Obj K → Obj K), (∀ o, (u o).alive = o.alive) → Sp 0 (modifyObj i u) fun _ => True :=
    fun i u h => Sp.modify (Nat.zero_le i) h
  have hreq : ∀ t, Sp 0 (K := K) (requireTensor t) fun _ => True := fun t => Sp.steady (by
    intro w
    unfold requireTensor
    split_ifs <;> exact Frame.refl w)
  cases c with
  | coordinates name shape syms ix symbol =>
    exact sp_sound (Sp.bind (Sp.lift _) fun _ _ => Sp.register fun _ => rfl) hs
  | transformation c c' rules => exact sp_sound (Sp.transformation c c' rules) hs
  | metric name comps c ix symbol => exact sp_sound (Sp.newMetric name comps c ix symbol) hs
  | tensor name comps m c ix symbol => exact sp_sound (Sp.newTensor _ _ _ _ _ _ _) hs
  | get t c ix => exact sp_sound (Sp.bind (hreq t) fun _ _ => Sp.getComponents _ _ _) hs
  | setIndices t ix => exact sp_sound (Sp.bind (hreq t) fun _ _ => Sp.changeDefaultIndices (Nat.zero_le _) _) hs
  | setCoords t c =>
    refine sp_sound (Q := fun _ => True) (Sp.bind (hreq t) fun _ _ => ?_) hs
    unfold changeDefaultCoords
    refine Sp.bind (Sp.isCoordinates _) fun b _ => Sp.ite Sp.raise (Sp.bind (Sp.getObj _) fun o _ =>
      Sp.ite (Sp.done _) (Sp.bind (Sp.getObj _) fun oc _ => Sp.ite (Sp.bind (Sp.getObj _) fun _ _ => Sp.raise) ?_))
    exact Sp.bind (P := fun _ => True) (Sp.steady (checkRepresentation_steady _ _ _)) fun _ _ =>
      Sp.bind (P := fun _ => True) (Sp.onlyIf (Sp.steady (transformCoordinates_steady _ _ _))) fun _ _ => hm _ _ fun _ => rfl
  | rename t name => exact sp_sound (hm _ _ fun _ => rfl) hs
  | delete t => exact sound_deleteObj hs t
  | deleteResults =>
    obtain ⟨w1, h1, hs1⟩ := passes_return (hasName "Result") 4 w hs
    show Sound (timesDo (deletePass (hasName "Result") tryDelete) 4 w).2
    rw [h1]
    exact hs1
  | clear =>
    obtain ⟨w1, h1, hi⟩ := clear_returns hs
    show Sound (clearInstances w).2
    rw [h1]
    exact ⟨by rw [hi]; exact List.nodup_nil, fun i h => by rw [hi] at h; cases h⟩
  | «calc» e name symbol ix => exact sp_sound (Sp.bind (Sp.eval letters e) fun _ _ => Sp.calcResult _ _ _ _) hs
  | compute f t =>
    cases f with
    | christoffel => exact sp_sound (Sp.calcChristoffel t) hs
    | riemann => exact sp_sound (Sp.calcRiemann t) hs
    | ricci => exact sp_sound (Sp.calcRicci t) hs
    | scalar => exact sp_sound (Sp.calcScalar t) hs
    | einstein => exact sp_sound (Sp.calcEinstein t) hs
    | weyl => exact sp_sound (Sp.calcWeyl t) hs
    | norm => exact sp_sound (Sp.bind (hreq t) fun _ _ => Sp.calcNormSquared t) hs
  | curve C f m c =>
    cases f with
    | lagrangian => exact sp_sound (Sp.calcLagrangian m c) hs
    | fromLagrangian => exact sp_sound (Sp.calcGeodesicLagrangian m c) hs
    | inactive => exact sp_sound (Sp.calcGeodesicInactive m c) hs
    | fromChristoffel => exact sp_sound (Sp.calcGeodesicChristoffel m c) hs
    | withTime => exact sp_sound (Sp.calcGeodesicTime m c) hs
  | curveGet C l c ix => exact sp_sound (Sp.bind (hreq l) fun _ _ => Sp.curveComponents _ _ _) hs
  | curveCoords C l c => exact sp_sound (Sp.bind (hreq l) fun _ _ => Sp.curveChangeCoords _ _) hs
  | simplify t =>
    exact sp_sound (Sp.bind (hreq t) fun _ _ => Sp.bind (Sp.getObj _) fun o _ => Sp.bind (Sp.getObj _) fun _ _ =>
      Sp.bind (Sp.keys (Keys.forM _ fun key _ => Keys.simplifyAt _ trivial)) fun _ _ => Sp.done _) hs
  | setSymbol t symbol => exact sp_sound (hm _ _ fun _ => rfl) hs
  | lineElement var m c =>
    exact sp_sound (Sp.bind (Sp.requireMetric m) fun _ _ => Sp.bind (Sp.lowerComponents m c) fun _ _ =>
      Sp.bind (Sp.getObj _) fun _ _ => Sp.done _) hs
  | volumeElement m c =>
    exact sp_sound (Sp.bind (Sp.requireMetric m) fun _ _ => Sp.bind (Sp.lowerComponents m c) fun _ _ => Sp.done _) hs
  | importOne I n text =>
    show Sound ((importFromString E I n text w).elim w (·.2))
    unfold importFromString
    split
    · exact hs
    · exact hs
    · exact sp_sound (Sp.importFromVal _) hs
  | importAll I n text =>
    show Sound ((importAllFromString E I n text w).elim w (·.2))
    unfold importAllFromString
    obtain ⟨w1, h1, hi⟩ := clear_returns hs
    rw [h1]
    have hs1 : Sound w1 := ⟨by rw [hi]; exact List.nodup_nil, fun i h => by rw [hi] at h; cases h⟩
    dsimp only
    split
    · exact hs
    · exact hs1
    · exact sp_sound (Sp.importAllFromVal _) hs1

theorem sound_history (letters : List Sym) (calls : List (Call K)) : ∀ w : World K, Sound w →
    Sound (history E letters calls w) := by
  induction calls with
  | nil => exact fun w h => h
  | cons c calls ih => exact fun w h => ih _ (sound_call letters c h)

theorem tidy_history (letters : List Sym) (calls : List (Call K)) : ∀ w : World K, Tidy w → Proper E letters calls w →
    Tidy (history E letters calls w) := by
  induction calls with
  | nil => exact fun w h _ => h
  | cons c calls ih => exact fun w h hp => ih _ (tidy_call letters c h hp.1) hp.2

theorem sound_fresh : Sound (fresh : World K) := ⟨List.nodup_nil, fun i h => by cases h⟩

theorem tidy_fresh : Tidy (fresh : World K) := by
  refine ⟨sound_fresh, fun i h => ?_, fun i h => ?_⟩ <;> cases h

end

/-- Four loops. -/
theorem four_passes {sel : Obj K → Bool} {p : Id' → Bool} {Inv : World K → Prop} {del : Id' → PyM K Unit}
    (hd : Deletes sel del p Inv) (k : Nat) : ∀ w : World K, Inv w → RunsBelow p (2 ^ k) w.instances →
      ∃ w', timesDo (deletePass sel del) k w = (.ok (), w') ∧ Inv w' ∧
        (∀ i, i ∈ w'.instances ↔ i ∈ w.instances ∧ p i = false) ∧
        ∀ i, (i ∈ w'.instances ∨ i ∉ w.instances) → w'.objs[i]? = w.objs[i]? := by
  induction k with
  | zero =>
    intro w hI hr
    exact ⟨w, rfl, hI, fun i => ⟨fun h => ⟨h, runsBelow_one hr i h⟩, And.left⟩, fun _ _ => rfl⟩
  | succ k ih =>
    intro w hI hr
    obtain ⟨w1, h1, hI1, hsw⟩ := sweep hd hI
    have hr1 : RunsBelow p (2 ^ k) w1.instances := by
      rw [hsw.instances]
      exact skipping_runs _ (by rw [← pow_succ']; exact hr)
    obtain ⟨w2, h2, hI2, h3, h4⟩ := ih w1 hI1 hr1
    have hsub : ∀ i ∈ w1.instances, i ∈ w.instances := fun i h => by
      rw [hsw.instances] at h
      exact (skipping_sublist _).subset h
    refine ⟨w2, ?_, hI2, fun i => ?_, fun i hi => ?_⟩
    · unfold timesDo
      rw [PyM.bind_apply, h1]
      exact h2
    · rw [h3]
      constructor
      · rintro ⟨a, b⟩
        exact ⟨hsub i a, b⟩
      · rintro ⟨a, b⟩
        refine ⟨?_, b⟩
        rw [hsw.instances]
        exact (mem_skipping b _).2 a
    · rcases hi with hi | hi
      · rw [h4 i (Or.inl hi), hsw.kept i (Or.inl ((h3 i).1 hi).1)]
      · rw [h4 i (Or.inr fun h => hi (hsub i h)), hsw.kept i (Or.inr hi)]

end PyOGRe
