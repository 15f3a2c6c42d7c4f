import Verif.Lemmas.Lasting
import Verif.Lemmas.NewChristoffel
import Verif.Lemmas.Core

/-! Helper lemmas: the shapes of the arrays that requests find and store. -/

namespace PyOGRe
open Spec
variable {K : Type}

/-- What is needed of sympy and of the number of coordinates. -/
class Tame [CommRing K] (E : Engine K) (n : Nat) : Prop where
  pos : 0 < n
  simp_eq : ∀ x, E.simp x = x
  inv_shape : ∀ a b, a.shape = [n, n] → E.inv a = .ok b → b.shape = [n, n]

/-- Every entry of an index configuration is `1` or `-1`. -/
def Signs (ix : List Int) : Prop := ∀ x ∈ ix, x = 1 ∨ x = -1

/-- The arrays of an object have the right shapes. -/
structure Shapely (n : Nat) (o : Obj K) : Prop where
  keys : ∀ c ix a, stored o c ix = some a → ix.length = o.indices.length ∧ Signs ix ∧ a.shape = List.replicate ix.length n
  plain : o.kind = .coordinates → ∀ c ix, stored o c ix = none
  two : o.kind = .metric → o.indices.length = 2
  bare : o.kind ≠ .coordinates → o.syms = []
  signs : Signs o.indices
  jacs : o.kind = .coordinates → ∀ c j, o.jac.get? c = some j → j.J.shape = [n, n] ∧ j.Jinv.shape = [n, n] ∧
    j.JJ.shape = [n, n, n]

/-- `c` is a coordinate system. -/
def Sys (w : World K) (c : Id') : Prop := ∃ oc, w.objs[c]? = some oc ∧ oc.kind = .coordinates

/-- All coordinate systems have `n` coordinates. -/
def AllDim (n : Nat) (w : World K) : Prop := ∀ (i : Id') (o : Obj K), w.objs[i]? = some o → o.kind = .coordinates → o.syms.length = n

/-- All objects have arrays of the right shapes. -/
def Fits (n : Nat) (w : World K) : Prop :=
  ∀ (i : Id') (o : Obj K), w.objs[i]? = some o → Shapely n o ∧ (o.kind ≠ .coordinates → Sys w o.coords)

/-- The object `i` is a tensor of rank `r`. -/
def Rk (w : World K) (i : Id') (r : Nat) : Prop :=
  ∃ o, w.objs[i]? = some o ∧ o.kind ≠ .coordinates ∧ o.indices.length = r ∧ Sys w o.coords

/-- If the object `i` exists, it has rank `r`. -/
def Rl (w : World K) (i : Id') (r : Nat) : Prop := ∀ o, w.objs[i]? = some o → o.indices.length = r

theorem core_kind {o o' : Obj K} (h : o.core = o'.core) : o.kind = o'.kind := congrArg (·.1) h
theorem core_indices {o o' : Obj K} (h : o.core = o'.core) : o.indices = o'.indices := congrArg (·.2.2.2.1) h
theorem core_coords {o o' : Obj K} (h : o.core = o'.core) : o.coords = o'.coords := congrArg (·.2.2.2.2.1) h
theorem core_syms {o o' : Obj K} (h : o.core = o'.core) : o.syms = o'.syms := congrArg (·.2.2.2.2.2.2.1) h

theorem Sys.frame {w w' : World K} {c : Id'} (h : Sys w c) (hf : Frame w w') : Sys w' c := by
  obtain ⟨oc, h1, h2⟩ := h
  obtain ⟨o', h3, h4⟩ := hf.get h1
  exact ⟨o', h3, (core_kind h4).trans h2⟩

/-- A computation that changes caches only, from a state that is `w0` but for caches. -/
def Sd (n : Nat) (w0 : World K) {α : Type} (m : PyM K α) (Q : α → Prop) : Prop :=
  AllDim n w0 → ∀ w, Frame w0 w → Fits n w → Frame w0 (m w).2 ∧ Fits n (m w).2 ∧ ∀ a, (m w).1 = .ok a → Q a

section
variable {n : Nat} {w0 : World K} {α β : Type}

theorem Sd.bind {m : PyM K α} {f : α → PyM K β} {P : α → Prop} {Q : β → Prop} (hm : Sd n w0 m P)
    (hf : ∀ a, P a → Sd n w0 (f a) Q) : Sd n w0 (m >>= f) Q := by
  intro hg w hw hs
  obtain ⟨h1, h2, h3⟩ := hm hg w hw hs
  rw [PyM.bind_apply]
  rcases h : m w with ⟨r, w'⟩
  rw [h] at h1 h2 h3
  cases r with
  | ok a => exact hf a (h3 a rfl) hg w' h1 h2
  | error e => exact ⟨h1, h2, fun a h => nomatch h⟩

theorem Sd.mono {m : PyM K α} {P Q : α → Prop} (hm : Sd n w0 m P) (h : ∀ a, P a → Q a) : Sd n w0 m Q := by
  intro hg w hw hs
  obtain ⟨h1, h2, h3⟩ := hm hg w hw hs
  exact ⟨h1, h2, fun a ha => h a (h3 a ha)⟩

theorem Sd.pure {a : α} {Q : α → Prop} (h : Q a) : Sd n w0 (Pure.pure a : PyM K α) Q :=
  fun _ _ hw hs => ⟨hw, hs, fun b hb => by cases hb; exact h⟩
theorem Sd.raise {e : PyErr} {Q : α → Prop} : Sd n w0 (PyM.raise e : PyM K α) Q :=
  fun _ _ hw hs => ⟨hw, hs, fun b hb => nomatch hb⟩
theorem Sd.lift {x : Py α} {Q : α → Prop} (h : ∀ a, x = .ok a → Q a) : Sd n w0 (PyM.lift x : PyM K α) Q :=
  fun _ _ hw hs => ⟨hw, hs, fun b hb => h b hb⟩
theorem Sd.ite {b : Prop} [Decidable b] {m m' : PyM K α} {Q : α → Prop} (h : b → Sd n w0 m Q) (h' : ¬ b → Sd n w0 m' Q) :
    Sd n w0 (if b then m else m') Q := by
  split_ifs with hb
  · exact h hb
  · exact h' hb
theorem Sd.onlyIf {b : Bool} {m : PyM K Unit} {Q : Unit → Prop} (h : b = true → Sd n w0 m Q) (h' : b = false → Q ()) :
    Sd n w0 (PyM.onlyIf b m) Q := by
  cases b with
  | true => exact h rfl
  | false => exact Sd.pure (h' rfl)
theorem Sd.know {m : PyM K α} {Q : α → Prop} (h : AllDim n w0 → Sd n w0 m Q) : Sd n w0 m Q := fun hg => h hg hg

/-- What is known of an object that was read. -/
structure Got (n : Nat) (w0 : World K) (i : Id') (o : Obj K) : Prop where
  shapely : Shapely n o
  old : ∃ o0, w0.objs[i]? = some o0 ∧ o.core = o0.core
  sys : o.kind ≠ .coordinates → Sys w0 o.coords

theorem Fits.got {w : World K} {i : Id'} {o : Obj K} (hs : Fits n w) (hw : Frame w0 w) (h : w.objs[i]? = some o) :
    Got n w0 i o := by
  obtain ⟨h1, h2⟩ := hs i o h
  obtain ⟨o0, h3, h4⟩ := hw.symm.get h
  exact ⟨h1, ⟨o0, h3, h4.symm⟩, fun hk => (h2 hk).frame hw.symm⟩

theorem Got.rank {i : Id'} {o : Obj K} {r : Nat} (h : Got n w0 i o) (hr : Rk w0 i r) :
    o.kind ≠ .coordinates ∧ o.indices.length = r ∧ Sys w0 o.coords := by
  obtain ⟨o0, e1, e2⟩ := h.old
  obtain ⟨o1, f1, f2, f3, f4⟩ := hr
  rw [e1] at f1
  cases f1
  exact ⟨by rwa [core_kind e2], by rwa [core_indices e2], by rwa [core_coords e2]⟩

theorem Got.rk {i : Id'} {o : Obj K} (h : Got n w0 i o) (hk : o.kind ≠ .coordinates) : Rk w0 i o.indices.length := by
  obtain ⟨o0, e1, e2⟩ := h.old
  exact ⟨o0, e1, by rwa [← core_kind e2], by rw [core_indices e2], by rw [← core_coords e2]; exact h.sys hk⟩

theorem Got.system {c : Id'} {o : Obj K} (h : Got n w0 c o) (hc : Sys w0 c) (hg : AllDim n w0) :
    o.kind = .coordinates ∧ o.syms.length = n := by
  obtain ⟨o0, e1, e2⟩ := h.old
  obtain ⟨oc, f1, f2⟩ := hc
  rw [e1] at f1
  cases f1
  exact ⟨(core_kind e2).trans f2, by rw [core_syms e2]; exact hg _ _ e1 f2⟩

theorem Got.rl {i : Id'} {o : Obj K} (h : Got n w0 i o) : Rl w0 i o.indices.length := by
  obtain ⟨o0, e1, e2⟩ := h.old
  intro o1 h1
  rw [e1] at h1
  cases h1
  rw [core_indices e2]

theorem Got.len {i : Id'} {o : Obj K} {r : Nat} (h : Got n w0 i o) (hr : Rl w0 i r) : o.indices.length = r := by
  obtain ⟨o0, e1, e2⟩ := h.old
  rw [core_indices e2]
  exact hr o0 e1

theorem Rk.rank {i : Id'} {r r' : Nat} (h : Rk w0 i r) (hr : Rl w0 i r') : r' = r := by
  obtain ⟨o, e1, -, e2, -⟩ := h
  rw [← hr o e1, e2]

theorem Sd.getObj (i : Id') : Sd n w0 (K := K) (PyOGRe.getObj i) (Got n w0 i) := by
  intro hg w hw hs
  rcases getObj_cases i w with ⟨o, h1, -, h⟩ | h <;> rw [h]
  · exact ⟨hw, hs, fun a ha => by cases ha; exact hs.got hw h1⟩
  · exact ⟨hw, hs, fun a ha => nomatch ha⟩

theorem Sd.lookup {A B : Type} [DecidableEq A] (d : Dict A B) (k : A) :
    Sd n w0 (K := K) (PyOGRe.lookup d k) fun v => d.get? k = some v := by
  unfold PyOGRe.lookup
  cases h : d.get? k with
  | none => exact Sd.raise
  | some v => exact Sd.pure rfl

/-- What is known of stored components that were read. -/
structure Comp (n : Nat) (w0 : World K) (i : Id') (ix : List Int) (a : Arr K) : Prop where
  rk : Rk w0 i ix.length
  signs : Signs ix
  shape : a.shape = List.replicate ix.length n

theorem Got.comp {i c : Id'} {o : Obj K} {ix : List Int} {a : Arr K} (h : Got n w0 i o) (ha : stored o c ix = some a) :
    Comp n w0 i ix a := by
  obtain ⟨h1, h2, h3⟩ := h.shapely.keys c ix a ha
  refine ⟨?_, h2, h3⟩
  rw [h1]
  exact h.rk fun hk => by rw [h.shapely.plain hk] at ha; cases ha

theorem Sd.readComps (i c : Id') (ix : List Int) : Sd n w0 (K := K) (PyOGRe.readComps i c ix) (Comp n w0 i ix) := by
  unfold PyOGRe.readComps
  refine Sd.bind (Sd.getObj i) fun o ho => Sd.bind (Sd.lookup _ _) fun d hd => Sd.mono (Sd.lookup _ _) fun a ha => ?_
  exact ho.comp (c := c) (by unfold stored; rw [hd]; exact ha)

theorem Sd.modify {i : Id'} {u : Obj K → Obj K} (hu : ∀ o, (u o).core = o.core)
    (h : ∀ o, Got n w0 i o → Shapely n (u o)) : Sd n w0 (modifyObj i u) fun _ => True := by
  intro hg w hw hs
  have hf : Frame w (modifyObj i u w).2 := Steady.modifyObj i u hu w
  refine ⟨hw.trans hf, fun j o ho => ?_, fun _ _ => trivial⟩
  have ho' : (w.objs.modify i u)[j]? = some o := ho
  by_cases hij : i = j
  · subst hij
    cases h1 : w.objs[i]? with
    | none => rw [List.getElem?_modify, h1] at ho'; simp at ho'
    | some o1 =>
      rw [modify_same h1] at ho'
      cases ho'
      refine ⟨h o1 (hs.got hw h1), fun hk => ?_⟩
      rw [core_coords (hu o1)]
      exact ((hs i o1 h1).2 (by rwa [← core_kind (hu o1)])).frame hf
  · rw [modify_ne hij] at ho'
    exact ⟨(hs j o ho').1, fun hk => ((hs j o ho').2 hk).frame hf⟩

theorem stored_set (o : Obj K) (c c' : Id') (d : Dict (List Int) (Arr K)) (ix : List Int) :
    stored { o with comps := o.comps.set c d } c' ix = if c = c' then d.get? ix else stored o c' ix := by
  unfold stored
  dsimp only
  rw [Dict.get?_set]
  split_ifs <;> rfl

theorem Sd.writeComps {i : Id'} (c : Id') {ix : List Int} {a : Arr K} (h : Comp n w0 i ix a) :
    Sd n w0 (PyOGRe.writeComps i c ix a) fun _ => True := by
  unfold PyOGRe.writeComps
  refine Sd.bind (Sd.getObj i) fun o ho => Sd.bind (Sd.lookup _ _) fun d hd => Sd.modify (fun _ => rfl) fun o' ho' => ?_
  obtain ⟨k1, k2, k3⟩ := ho.rank h.rk
  obtain ⟨l1, l2, l3⟩ := ho'.rank h.rk
  refine ⟨fun c' ix' a' hs => ?_, fun hk => absurd hk l1, ho'.shapely.two, ho'.shapely.bare, ho'.shapely.signs, fun hk => absurd hk l1⟩
  show ix'.length = o'.indices.length ∧ _
  rw [stored_set] at hs
  split_ifs at hs with hc
  · rw [Dict.get?_set] at hs
    split_ifs at hs with hi
    · cases hs
      subst hi
      exact ⟨l2.symm, h.signs, h.shape⟩
    · obtain ⟨m1, m2⟩ := ho.shapely.keys c ix' a' (by unfold stored; rw [hd]; exact hs)
      exact ⟨by rw [m1, k2, l2], m2⟩
  · exact ho'.shapely.keys c' ix' a' hs

theorem Sd.ensureCoords (i c : Id') : Sd n w0 (K := K) (PyOGRe.ensureCoords i c) fun _ => True := by
  unfold PyOGRe.ensureCoords
  refine Sd.modify (fun o => by split_ifs <;> rfl) fun o ho => ?_
  split_ifs with h
  · exact ho.shapely
  · have key : ∀ c' ix, stored { o with comps := o.comps.set c [] } c' ix = none ∨
        stored { o with comps := o.comps.set c [] } c' ix = stored o c' ix := by
      intro c' ix
      rw [stored_set]
      split_ifs
      · exact Or.inl rfl
      · exact Or.inr rfl
    refine ⟨fun c' ix a hs => ?_, fun hk c' ix => ?_, ho.shapely.two, ho.shapely.bare, ho.shapely.signs, ho.shapely.jacs⟩
    · rcases key c' ix with e | e
      · rw [e] at hs; cases hs
      · rw [e] at hs; exact ho.shapely.keys c' ix a hs
    · rcases key c' ix with e | e
      · exact e
      · rw [e]; exact ho.shapely.plain hk c' ix

theorem Sd.world : Sd n w0 (K := K) PyM.world fun w => Frame w0 w :=
  fun _ _ hw hs => ⟨hw, hs, fun a ha => by cases ha; exact hw⟩

theorem Sd.isCoordinates (c : Id') : Sd n w0 (K := K) (PyOGRe.isCoordinates c) fun b => b = true → Sys w0 c := by
  unfold PyOGRe.isCoordinates
  refine Sd.bind Sd.world fun w hw => Sd.pure fun h => ?_
  cases ho : w.objs[c]? with
  | none => rw [ho] at h; cases h
  | some o =>
    rw [ho, Option.any_some] at h
    exact Sys.frame ⟨o, ho, by simpa using h⟩ hw.symm

end

section
variable [CommRing K] {E : Engine K} {n : Nat} {w0 : World K}

theorem length_orderedRules (old : List Sym) (rules : List (Option (Sym × K))) :
    old.length ≤ (orderedRules old rules).length ∧
      ((orderedRules old rules).any Option.isSome = false → (orderedRules old rules).length = old.length) := by
  induction old with
  | nil => simp [orderedRules]
  | cons s old ih =>
    have hcons : orderedRules (s :: old) rules =
        (if (rules.filter (ruleIsFor s)).isEmpty then [none] else rules.filter (ruleIsFor s)) ++ orderedRules old rules := by
      unfold orderedRules
      rw [List.flatMap_cons]
    rw [hcons]
    obtain ⟨h1, h2⟩ := ih
    generalize orderedRules old rules = l at h1 h2
    split_ifs with h
    · refine ⟨by simp; omega, fun h3 => ?_⟩
      have := h2 (by simpa using h3)
      simp [this, Nat.add_comm]
    · have h0 : 0 < (rules.filter (ruleIsFor s)).length := by
        rw [List.length_pos_iff]
        simpa using h
      refine ⟨by rw [List.length_append, List.length_cons]; omega, fun h3 => ?_⟩
      exfalso
      obtain ⟨r, hr⟩ := List.exists_mem_of_length_pos h0
      have hr2 := (List.mem_filter.1 hr).2
      rw [List.any_append, Bool.or_eq_false_iff, List.any_eq_false] at h3
      apply h3.1 r hr
      cases r with
      | none => simp [ruleIsFor] at hr2
      | some r => rfl

theorem jacobian_shapes [T : Tame E n] {old new : List Sym} (ho : old.length = n) (hn : new.length ≤ n)
    {rules : List (Option (Sym × K))} {j : Jacobians K} (h : calculateJacobian E old new rules = .ok j) :
    j.J.shape = [n, n] ∧ j.Jinv.shape = [n, n] ∧ j.JJ.shape = [n, n, n] := by
  obtain ⟨h1, h2⟩ := length_orderedRules old rules
  unfold calculateJacobian at h
  dsimp only at h
  cases hz : zeroTensor (K := K) ((orderedRules old rules).length : Int) 2 with
  | error e => rw [hz] at h; simp at h
  | ok z =>
    rw [hz, py_ok_bind] at h
    split_ifs at h with hc
    · have hm : (orderedRules old rules).length = n := by
        by_cases ha : (orderedRules old rules).any Option.isSome = true
        · have : ¬ new.length < (orderedRules old rules).length := fun hl => hc ⟨hl, ha⟩
          omega
        · rw [h2 (by simpa using ha), ho]
      rw [hm] at h
      generalize hJ : Arr.map E.simp (Arr.ofFn [n, n] (jacobianEntry E new (orderedRules old rules))) = J at h
      have hJs : J.shape = [n, n] := by rw [← hJ]; rfl
      cases hi : E.inv J with
      | error e => rw [hi] at h; simp at h
      | ok Ji =>
        rw [hi, py_ok_bind] at h
        simp only [py_pure, Except.ok.injEq] at h
        subst h
        exact ⟨hJs, (Arr.shape_map _ _).trans (T.inv_shape _ _ hJs hi), rfl⟩

theorem raiseLower_shape [T : Tame E n] {g ginv comps c : Arr K} {src tgt : List Int} (hg : g.shape = [n, n])
    (hgi : ginv.shape = [n, n]) (hs : Signs src) (ht : Signs tgt) (hl : tgt.length = src.length)
    (hc : comps.shape = List.replicate src.length n) (h : raiseLower E g ginv src tgt comps = .ok c) :
    c.shape = List.replicate src.length n := by
  have hax := axisMatrices_eq g ginv comps n (by
    cases src with
    | nil => right; simpa using hc
    | cons a src => left; simp [hc, List.replicate_succ, headDim]) src tgt hs ht (by
    intro h; rw [hc] at h; simpa using h)
  have key : ∀ (Ms : List (Arr K)), (∀ M ∈ Ms, M.shape = [n, n]) → ∀ (m r : Nat), m + Ms.length ≤ r →
      ∀ a : Arr K, a.shape = List.replicate r n →
      ∃ c, ((Ms.zipIdx m).zipIdx m).foldlM (fun acc p => do
        let c ← contract E p.1.1 acc [(1, (p.1.2 : Int))]
        c.permutedims (moveFirstTo acc.rank p.2)) a = .ok c ∧ c.shape = List.replicate r n := by
    intro Ms
    induction Ms with
    | nil => exact fun _ m r _ a ha => ⟨a, rfl, ha⟩
    | cons M Ms ih =>
      intro hMs m r hm a ha
      obtain ⟨c, hc, -, hcs, -⟩ := raiseLower_step E T.simp_eq T.pos M a (hMs M (by simp)) ha m (by simp at hm; omega)
      obtain ⟨d, hd, hds⟩ := ih (fun M hM => hMs M (by simp [hM])) (m + 1) r (by simp at hm; omega) c (by rw [hcs, ha])
      refine ⟨d, ?_, hds⟩
      simp only [List.zipIdx_cons, List.foldlM_cons]
      rw [hc, py_ok_bind, hd]
  obtain ⟨d, h1, h3⟩ := key (List.zipWith (axisArr g ginv n) src tgt) (by
      intro M hM
      obtain ⟨a, b, rfl⟩ := mem_zipWith hM
      exact axisArr_shape hg hgi a b) 0 src.length (by simp) comps hc
  unfold raiseLower at h
  rw [hax, h1] at h
  cases h
  exact h3

theorem transformed_shape [T : Tame E n] {J Jinv comps c : Arr K} {ix : List Int} (hJ : J.shape = [n, n])
    (hJi : Jinv.shape = [n, n]) (hi : Signs ix) (hc : comps.shape = List.replicate ix.length n)
    (h : ((jacobianFactors J Jinv ix).foldl Arr.tensorproduct comps).tensorcontraction (jacobianPairs ix.length ix) = .ok c) :
    c.shape = List.replicate ix.length n := by
  obtain ⟨d, h1, -, h3, -⟩ := transformComponents_spec E T.simp_eq T.pos J Jinv comps [] ix hJ hJi hi hc
  unfold transformComponents at h1
  dsimp only at h1
  rw [h] at h1
  cases h1
  rw [← hc, ← h3]
  rfl

theorem add_shape {a b c : Arr K} (h : a.add b = .ok c) : c.shape = a.shape := by
  unfold Arr.add at h
  split_ifs at h
  cases h
  rfl

theorem except_bind_ok {α β : Type} {x : Py α} {f : α → Py β} {b : β} (h : (x >>= f) = .ok b) :
    ∃ a, x = .ok a ∧ f a = .ok b := by
  cases x with
  | error e => cases h
  | ok a => exact ⟨a, rfl, h⟩

theorem transformComponents_shape [T : Tame E n] {J Jinv comps c : Arr K} {rules : List (Sym × K)} {ix : List Int}
    (hJ : J.shape = [n, n]) (hJi : Jinv.shape = [n, n]) (hi : Signs ix) (hc : comps.shape = List.replicate ix.length n)
    (h : transformComponents E J Jinv rules ix comps = .ok c) : c.shape = List.replicate ix.length n := by
  obtain ⟨d, h1, h2⟩ := except_bind_ok h
  cases h2
  have := transformed_shape (E := E) hJ hJi hi hc h1
  exact this

theorem transformChristoffel_shape [T : Tame E n] {j : Jacobians K} {comps c : Arr K}
    {ordered : List (Option (Sym × K))} {ix : List Int}
    (hJ : j.J.shape = [n, n]) (hJi : j.Jinv.shape = [n, n]) (hi : Signs ix)
    (hc : comps.shape = List.replicate ix.length n)
    (h : transformChristoffel E j ordered ix comps = .ok c) : c.shape = List.replicate ix.length n := by
  obtain ⟨d, h1, h2⟩ := except_bind_ok h
  obtain ⟨e, h3, h4⟩ := except_bind_ok h2
  obtain ⟨s, h5, h6⟩ := except_bind_ok h4
  cases h6
  have := (add_shape h5).trans (transformed_shape (E := E) hJ hJi hi hc h1)
  exact this

theorem Sd.checkJacobians [T : Tame E n] (i c : Id') :
    Sd n w0 (PyOGRe.checkJacobians E i c) fun _ => True := by
  refine Sd.know fun hg => ?_
  unfold PyOGRe.checkJacobians calcJacobian
  refine Sd.bind (Sd.getObj _) fun o ho => Sd.ite (fun _ => Sd.pure trivial) fun _ => Sd.ite (fun _ => ?_) fun _ => ?_
  · refine Sd.bind (Sd.getObj _) fun o1 h1 => Sd.bind (Sd.getObj _) fun o2 h2 => Sd.bind (Sd.lookup _ _) fun r hr =>
      Sd.bind (Sd.lift (Q := fun j => calculateJacobian E o1.syms o2.syms r = .ok j) fun _ h => h) fun j hj =>
      Sd.modify (fun _ => rfl) fun o3 h3 => ?_
    refine ⟨h3.shapely.keys, h3.shapely.plain, h3.shapely.two, h3.shapely.bare, h3.shapely.signs, fun hk c' j' hj' => ?_⟩
    rw [Dict.get?_set] at hj'
    split_ifs at hj' with e
    · cases hj'
      have hi : Sys w0 i := by
        obtain ⟨o0, e1, e2⟩ := h3.old
        exact ⟨o0, e1, (core_kind e2).symm.trans hk⟩
      have hn : o2.syms.length ≤ n := by
        by_cases hk2 : o2.kind = .coordinates
        · obtain ⟨o0, e1, e2⟩ := h2.old
          rw [core_syms e2]
          exact le_of_eq (hg _ _ e1 ((core_kind e2).symm.trans hk2))
        · rw [h2.shapely.bare hk2]
          exact Nat.zero_le _
      exact jacobian_shapes (h1.system hi hg).2 hn hj
    · exact h3.shapely.jacs hk c' j' hj'
  · exact Sd.bind (Sd.getObj _) fun _ _ => Sd.raise

theorem Sd.baseTransform [T : Tame E n] (i c : Id') (ix : List Int) :
    Sd n w0 (PyOGRe.baseTransform E i c ix) fun _ => Rk w0 i ix.length ∧ Signs ix := by
  refine Sd.know fun hg => ?_
  unfold PyOGRe.baseTransform
  refine Sd.bind (Sd.getObj _) fun o ho => ?_
  refine Sd.bind (Sd.checkJacobians _ _) fun _ _ => Sd.bind (Sd.readComps _ _ _) fun a ha =>
    Sd.bind (Sd.getObj _) fun oc hoc' => Sd.bind (Sd.lookup _ _) fun j hj => Sd.bind (Sd.lookup _ _) fun rules hrules =>
    Sd.bind (Sd.lift (Q := fun b => b.shape = List.replicate ix.length n) fun b hb => ?_) fun b hb =>
    Sd.bind (Sd.ensureCoords _ _) fun _ _ => Sd.mono (Sd.writeComps _ ⟨ha.rk, ha.signs, hb⟩) fun _ _ => ⟨ha.rk, ha.signs⟩
  obtain ⟨j1, j2, -⟩ := hoc'.shapely.jacs (hoc'.system (ho.rank ha.rk).2.2 hg).1 _ _ hj
  exact transformComponents_shape j1 j2 ha.signs ha.shape (needArray_inv hb).2

theorem Sd.metricTransform [T : Tame E n] (i c : Id') {ix : List Int}
    (hl : ix.length = 2) : Sd n w0 (PyOGRe.metricTransform E i c ix) fun _ => True := by
  unfold PyOGRe.metricTransform
  refine Sd.bind (Sd.baseTransform _ _ _) fun _ hb => ?_
  obtain ⟨hr, hs⟩ := hb
  rw [hl] at hr
  match ix, hl with
  | [a, b], _ =>
    have ha : a = 1 ∨ a = -1 := hs a (by simp)
    have hb : b = 1 ∨ b = -1 := hs b (by simp)
    have na : -a = 1 ∨ -a = -1 := by rcases ha with rfl | rfl <;> simp
    have nb : -b = 1 ∨ -b = -1 := by rcases hb with rfl | rfl <;> simp
    have two : ∀ {x y : Int}, (x = 1 ∨ x = -1) → (y = 1 ∨ y = -1) → Signs [x, y] := by
      intro x y hx hy z hz
      simp only [List.mem_cons, List.not_mem_nil, or_false] at hz
      rcases hz with rfl | rfl <;> assumption
    refine Sd.bind (Sd.getObj _) fun o ho => Sd.bind (Sd.readComps _ _ _) fun d hd => ?_
    have hds : d.shape = [n, n] := by rw [hd.shape, (ho.rank hr).2.1]; rfl
    refine Sd.bind (Sd.lift (Q := fun v => v.shape = [n, n]) fun v hv => T.inv_shape _ _ hds hv) fun v hv =>
      Sd.bind (Sd.writeComps _ ⟨hr, two na nb, hv⟩) fun _ _ => ?_
    dsimp only
    refine Sd.bind (Sd.readComps _ _ _) fun p hp => Sd.bind (Sd.readComps _ _ _) fun q hq =>
      Sd.bind (Sd.lift (Q := fun v => v.shape = [n, n]) fun v hv => ?_) fun v hv =>
      Sd.bind (Sd.writeComps _ ⟨hr, two ha nb, hv⟩) fun _ _ => Sd.bind (Sd.readComps _ _ _) fun p hp =>
      Sd.bind (Sd.readComps _ _ _) fun q hq => Sd.bind (Sd.lift (Q := fun v => v.shape = [n, n]) fun v hv => ?_) fun v hv =>
      Sd.writeComps _ ⟨hr, two na hb, hv⟩
    · obtain ⟨⟨c, c1, -, c2, -⟩, -⟩ := mixedMetric_spec T.pos (a := p) (b := q) hp.shape hq.shape
      rw [c1] at hv
      cases hv
      exact c2
    · obtain ⟨-, ⟨c, c1, -, c2, -⟩⟩ := mixedMetric_spec T.pos (a := p) (b := q) hp.shape hq.shape
      rw [c1] at hv
      cases hv
      exact c2

theorem Sd.metricCheck (i c : Id') : Sd n w0 (K := K) (PyOGRe.metricCheck i c) fun _ => True := by
  unfold PyOGRe.metricCheck
  exact Sd.bind (Sd.getObj _) fun _ _ => Sd.pure trivial

theorem Sd.tensorRaiseLower [T : Tame E n] {i : Id'} (c : Id') {ix : List Int} (hi : Rl w0 i ix.length)
    (hs : Signs ix) :
    Sd n w0 (PyOGRe.tensorRaiseLower E i c ix) fun _ => True := by
  unfold PyOGRe.tensorRaiseLower
  refine Sd.bind (Sd.getObj _) fun o ho => ?_
  refine Sd.bind (Sd.metricCheck _ _) fun b _ =>
    Sd.bind (Sd.onlyIf (Q := fun _ => True) (fun _ => Sd.metricTransform _ _ rfl) fun _ => trivial) fun _ _ =>
    Sd.bind (Sd.getObj _) fun o' ho' => Sd.bind (Sd.lookup _ _) fun d hd => ?_
  match d with
  | [] => exact Sd.raise
  | (src, comps) :: d' =>
    have hcomp : Comp n w0 i src comps := ho'.comp (c := c) (by
      unfold stored
      rw [hd]
      show Dict.get? ((src, comps) :: d') src = some comps
      simp [Dict.get?])
    have hlen : ix.length = src.length := by
      exact hcomp.rk.rank hi
    refine Sd.bind (Sd.readComps _ _ _) fun g hg => Sd.bind (Sd.readComps _ _ _) fun gi hgi =>
      Sd.bind (Sd.lift (Q := fun b => b.shape = List.replicate ix.length n) fun b hb => ?_) fun b hb =>
      Sd.writeComps _ ⟨by rw [hlen]; exact hcomp.rk, hs, hb⟩
    rw [hlen]
    exact raiseLower_shape hg.shape hgi.shape hcomp.signs hs hlen hcomp.shape hb

theorem Sd.tensorCheck [T : Tame E n] {i : Id'} (c : Id') {ix : List Int} (hi : Rl w0 i ix.length)
    (hs : Signs ix) : Sd n w0 (PyOGRe.tensorCheck E i c ix) fun _ => True := by
  unfold PyOGRe.tensorCheck
  refine Sd.bind (Sd.getObj _) fun o _ => ?_
  cases o.comps.get? c with
  | none => exact Sd.pure trivial
  | some d =>
    exact Sd.bind (Sd.onlyIf (Q := fun _ => True) (fun _ => Sd.tensorRaiseLower _ hi hs) fun _ => trivial) fun _ _ =>
      Sd.pure trivial

theorem Sd.tensorTransform [T : Tame E n] {i : Id'} (c : Id') {ix : List Int} (hi : Rl w0 i ix.length)
    (hs : Signs ix) : Sd n w0 (PyOGRe.tensorTransform E i c ix) fun _ => True := by
  unfold PyOGRe.tensorTransform
  refine Sd.bind (Sd.getObj _) fun o ho => ?_
  exact Sd.bind (Sd.tensorCheck _ hi hs) fun _ _ =>
    Sd.bind (Sd.onlyIf (Q := fun _ => True) (fun _ => Sd.tensorRaiseLower _ hi hs) fun _ => trivial) fun _ _ =>
    Sd.mono (Sd.baseTransform _ _ _) fun _ _ => trivial

theorem Sd.christoffelTransform [T : Tame E n] (i c : Id') (ix : List Int) :
    Sd n w0 (PyOGRe.christoffelTransform E i c ix) fun _ => True := by
  refine Sd.know fun hg => ?_
  unfold PyOGRe.christoffelTransform
  refine Sd.bind (Sd.getObj _) fun o ho => ?_
  refine Sd.bind (Sd.checkJacobians _ _) fun _ _ => Sd.bind (Sd.getObj _) fun oc hoc' =>
    Sd.bind (Sd.readComps _ _ _) fun a ha =>
    Sd.bind (Sd.lookup _ _) fun j hj => Sd.bind (Sd.lookup _ _) fun rules hrules =>
    Sd.bind (Sd.lift (Q := fun b => b.shape = List.replicate ix.length n) fun b hb => ?_) fun b hb =>
    Sd.bind (Sd.ensureCoords _ _) fun _ _ => Sd.writeComps _ ⟨ha.rk, ha.signs, hb⟩
  obtain ⟨j1, j2, -⟩ := hoc'.shapely.jacs (hoc'.system (ho.rank ha.rk).2.2 hg).1 _ _ hj
  exact transformChristoffel_shape j1 j2 ha.signs ha.shape hb

theorem signs_of_valid {ix src : List Int} {u : Unit} (h : validateIndices ix src = .ok u) :
    Signs ix ∧ ix.length = src.length := by
  unfold validateIndices at h
  split_ifs at h with h1 h2
  · refine ⟨fun x hx => ?_, (not_not.1 h2).symm⟩
    rw [List.any_eq_true] at h1
    by_contra hc
    exact h1 ⟨x, hx, by simpa using hc⟩

theorem Sd.checkRepresentation [T : Tame E n] {i : Id'} (c : Id') {ix : List Int} (hi : Rl w0 i ix.length)
    (hs : Signs ix) : Sd n w0 (PyOGRe.checkRepresentation E i c ix) fun _ => True := by
  unfold PyOGRe.checkRepresentation
  refine Sd.bind (Sd.getObj _) fun o _ => ?_
  cases o.kind with
  | metric => exact Sd.metricCheck _ _
  | _ => exact Sd.tensorCheck _ hi hs

theorem Sd.transformCoordinates [T : Tame E n] {i : Id'} (c : Id') {ix : List Int} (hi : Rl w0 i ix.length)
    (hs : Signs ix) : Sd n w0 (PyOGRe.transformCoordinates E i c ix) fun _ => True := by
  unfold PyOGRe.transformCoordinates
  refine Sd.bind (Sd.getObj _) fun o ho => ?_
  cases hk : o.kind with
  | metric =>
    refine Sd.metricTransform _ _ ?_
    rw [← ho.len hi]
    exact ho.shapely.two hk
  | christoffel => exact Sd.christoffelTransform _ _ _
  | _ => exact Sd.tensorTransform _ hi hs

theorem Sd.getRepresentation [T : Tame E n] (i c : Id') (ix : List Int) :
    Sd n w0 (PyOGRe.getRepresentation E i c ix) (Comp n w0 i ix) := by
  unfold PyOGRe.getRepresentation
  refine Sd.bind (Sd.isCoordinates c) fun b hb => ?_
  cases b with
  | false => exact Sd.raise
  | true =>
    refine Sd.bind (Sd.getObj _) fun o ho => Sd.bind (Sd.lift (Q := fun _ => Signs ix ∧ ix.length = o.indices.length)
      fun u hu => signs_of_valid hu) fun _ hv => ?_
    have hr : Rl w0 i ix.length := by rw [hv.2]; exact ho.rl
    have h1 := hv.1
    exact Sd.bind (Sd.checkRepresentation _ hr h1) fun b _ =>
      Sd.bind (Sd.onlyIf (Q := fun _ => True) (fun _ => Sd.transformCoordinates _ hr h1) fun _ => trivial) fun _ _ =>
      Sd.readComps _ _ _

theorem Sd.lagrangianTransform [T : Tame E n] {C : Curves K} (i c : Id') (ix : List Int) :
    Sd n w0 (PyOGRe.lagrangianTransform E C i c ix) fun _ => True := by
  refine Sd.know fun hg => ?_
  unfold PyOGRe.lagrangianTransform
  refine Sd.bind (Sd.getObj _) fun o ho => ?_
  refine Sd.bind (Sd.checkJacobians _ _) fun _ _ => Sd.bind (Sd.readComps _ _ _) fun a ha =>
    Sd.bind (Sd.getObj _) fun oc hoc' => Sd.bind (Sd.lookup _ _) fun j hj => Sd.bind (Sd.lookup _ _) fun rules hrules =>
    Sd.bind (Sd.lift (Q := fun b => b.shape = List.replicate ix.length n) fun b hb => ?_) fun b hb =>
    Sd.bind (Sd.getObj _) fun _ _ => Sd.bind (Sd.ensureCoords _ _) fun _ _ => Sd.writeComps _ ⟨ha.rk, ha.signs, hb⟩
  obtain ⟨j1, j2, -⟩ := hoc'.shapely.jacs (hoc'.system (ho.rank ha.rk).2.2 hg).1 _ _ hj
  exact transformed_shape (E := E) j1 j2 ha.signs ha.shape (needArray_inv hb).2

theorem Sd.geodesicTransform [T : Tame E n] {C : Curves K} (i c : Id') (ix : List Int) :
    Sd n w0 (PyOGRe.geodesicTransform E C i c ix) fun _ => True := by
  unfold PyOGRe.geodesicTransform
  refine Sd.bind (Sd.getObj _) fun o ho => ?_
  exact Sd.bind (Sd.checkJacobians _ _) fun _ _ => Sd.bind (Sd.readComps _ _ _) fun a ha =>
    Sd.bind (Sd.getObj _) fun oc hoc' => Sd.bind (Sd.lookup _ _) fun j hj => Sd.bind (Sd.lookup _ _) fun rules hrules =>
    Sd.bind (Sd.lift (Q := fun _ => True) fun _ _ => trivial) fun b hb =>
    Sd.bind (Sd.getObj _) fun _ _ => Sd.bind (Sd.ensureCoords _ _) fun _ _ => Sd.writeComps _ ⟨ha.rk, ha.signs, ha.shape⟩

theorem Sd.curveTransform [T : Tame E n] {C : Curves K} (i c : Id') (ix : List Int) :
    Sd n w0 (PyOGRe.curveTransform E C i c ix) fun _ => True := by
  unfold PyOGRe.curveTransform
  refine Sd.bind (Sd.getObj _) fun o ho => ?_
  cases o.kind with
  | lagrangian => exact Sd.lagrangianTransform _ _ _
  | _ => exact Sd.geodesicTransform _ _ _

theorem Sd.curveRepresentation [T : Tame E n] {C : Curves K} (i c : Id') (ix : List Int) :
    Sd n w0 (PyOGRe.curveRepresentation E C i c ix) (Comp n w0 i ix) := by
  unfold PyOGRe.curveRepresentation
  refine Sd.bind (Sd.isCoordinates c) fun b hb => ?_
  cases b with
  | false => exact Sd.raise
  | true =>
    refine Sd.bind (Sd.getObj _) fun o ho => Sd.bind (Sd.lift (Q := fun _ => Signs ix ∧ ix.length = o.indices.length)
      fun u hu => signs_of_valid hu) fun _ hv => ?_
    have hr : Rl w0 i ix.length := by rw [hv.2]; exact ho.rl
    have h1 := hv.1
    exact Sd.bind (Sd.tensorCheck _ hr h1) fun b _ =>
      Sd.bind (Sd.onlyIf (Q := fun _ => True) (fun _ => Sd.curveTransform _ _ _) fun _ => trivial) fun _ _ =>
      Sd.readComps _ _ _

theorem Sd.getComponents [T : Tame E n] (i : Id') (c : Option Id') (ix : Option (List Int)) :
    Sd n w0 (PyOGRe.getComponents E i c ix) fun a => ∃ ix', Comp n w0 i ix' a := by
  unfold PyOGRe.getComponents
  exact Sd.bind (Sd.getObj _) fun o _ => Sd.mono (Sd.getRepresentation _ _ _) fun a ha => ⟨_, ha⟩

theorem Sd.curveComponents [T : Tame E n] {C : Curves K} (i : Id') (c : Option Id') (ix : Option (List Int)) :
    Sd n w0 (PyOGRe.curveComponents E C i c ix) fun a => ∃ ix', Comp n w0 i ix' a := by
  unfold PyOGRe.curveComponents
  exact Sd.bind (Sd.getObj _) fun o _ => Sd.bind (Sd.curveRepresentation _ _ _) fun a ha => Sd.bind (Sd.getObj _) fun _ _ =>
    Sd.pure ⟨_, ha.rk, ha.signs, ha.shape⟩

theorem Sd.lowerComponents [T : Tame E n] (i : Id') (c : Option Id') :
    Sd n w0 (PyOGRe.lowerComponents E i c) fun _ => True := by
  unfold PyOGRe.lowerComponents
  refine Sd.bind (P := fun _ => True) ?_ fun b _ => Sd.ite (fun _ => Sd.raise) fun _ => ?_
  · cases c with
    | none => exact Sd.pure trivial
    | some c => exact Sd.mono (Sd.isCoordinates c) fun _ _ => trivial
  · exact Sd.bind (Sd.getObj _) fun o ho => Sd.bind (Sd.metricCheck _ _) fun b _ =>
      Sd.bind (Sd.onlyIf (Q := fun _ => True) (fun _ => Sd.metricTransform _ _ rfl) fun _ => trivial) fun _ _ =>
      Sd.bind (Sd.readComps _ _ _) fun _ _ => Sd.pure trivial

theorem Sd.simplifyAt [T : Tame E n] (i : Id') (r : Nat) (hr : Rl w0 i r) (key : Id' × List Int) :
    Sd n w0 (PyOGRe.simplifyAt E i r key) fun _ => True := by
  unfold PyOGRe.simplifyAt
  refine Sd.bind (Sd.readComps _ _ _) fun a ha =>
    Sd.bind (Sd.lift (Q := fun b => b.shape = List.replicate key.2.length n) fun b hb => ?_) fun b hb =>
    Sd.writeComps _ ⟨ha.rk, ha.signs, hb⟩
  unfold simplified at hb
  split_ifs at hb with h0
  · exfalso
    subst h0
    have hs := ha.shape
    rw [← ha.rk.rank hr] at hs
    unfold Arr.first at hb
    rw [if_pos (by show (Arr.map E.simp a).shape.length = 0; rw [Arr.shape_map, hs]; rfl)] at hb
    cases hb
  · cases hb
    exact ha.shape

theorem Sd.simplifyTensor [T : Tame E n] (i : Id') :
    Sd n w0 (PyOGRe.simplifyTensor E i) fun _ => True := by
  unfold PyOGRe.simplifyTensor
  refine Sd.bind (Sd.getObj _) fun o ho => Sd.bind (Sd.getObj _) fun _ _ => Sd.bind (P := fun _ => True) ?_ fun _ _ => Sd.pure trivial
  have hr := ho.rl
  generalize o.indices.length = r at hr
  generalize o.representations = l
  induction l with
  | nil => exact Sd.pure trivial
  | cons k l ih => exact Sd.bind (Sd.simplifyAt i r hr k) fun _ _ => ih

end

end PyOGRe
