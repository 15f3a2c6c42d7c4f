import Verif.Props.ExportLimits

/-!
# C88: roles of imported objects; exporting deleted objects (C59)

`Model/Export.lean` against `Spec.tensorRoles`.
-/

namespace PyOGRe
variable {K : Type} [DecidableEq K] [CommRing K]

namespace Spec

/-- The roles that the Mathematica package gives to what are ordinary tensors here. -/
def tensorRoles : List String :=
  ["Tensor", "Calculated", "NormSquared", "Riemann", "Ricci Tensor", "Ricci Scalar", "Einstein"]

/-- The roles of the other classes. -/
def classRoles : List String :=
  ["Coordinates", "Metric", "Lagrangian", "Christoffel", "GeodesicFromChristoffel", "GeodesicFromLagrangian",
    "GeodesicWithTimeParameter"]

/-- The association of an object with the given role. -/
def withRole (before after : List (Val K × Val K)) (role : String) : Val K :=
  .dict (before ++ (.str "Role".toList, .str role.toList) :: after)

/-- The same up to the name for the role of tensors. -/
inductive SameButRole : Val K → Val K → Prop
  | same (v : Val K) : SameButRole v v
  | role (before after : List (Val K × Val K)) (r r' : String) (hr : r ∈ tensorRoles) (hr' : r' ∈ tensorRoles)
      (h : ∀ p ∈ before, p.1.sameKey (.str "Role".toList) = false) :
      SameButRole (withRole before after r) (withRole before after r')

end Spec
open Spec

theorem item_role {before after : List (Val K × Val K)} (r : String)
    (h : ∀ p ∈ before, p.1.sameKey (.str "Role".toList) = false) :
    (withRole before after r).item "Role" = .ok (.str r.toList) := by
  unfold withRole Val.item
  dsimp only
  rw [List.find?_append, List.find?_eq_none.2 fun p hp => by rw [h p hp]; simp, Option.none_or, List.find?_cons_of_pos]
  simp [Val.sameKey]

theorem item_other {before after : List (Val K × Val K)} (r r' : String) {k : String} (hk : k ≠ "Role") :
    (withRole before after r).item k = (withRole before after r').item k ∧
      (withRole before after r).hasItem k = (withRole before after r').hasItem k := by
  have hs : (Val.str "Role".toList : Val K).sameKey (.str k.toList) = false := by
    simp only [Val.sameKey, beq_eq_false_iff_ne, ne_eq]
    exact fun h => hk (String.toList_inj.1 h).symm
  unfold withRole Val.item Val.hasItem
  dsimp only
  rw [List.find?_append, List.find?_append, List.find?_cons_of_neg (by rw [hs]; simp),
    List.find?_cons_of_neg (by rw [hs]; simp), List.any_append, List.any_append, List.any_cons, List.any_cons, hs]
  exact ⟨rfl, rfl⟩

theorem roleKind_tensor {r : String} (hr : r ∈ tensorRoles) : roleKind (some r) = .ok .tensor := by
  revert r
  decide

theorem importOne_role (I : Importer K) (w : World K) (name : Val K) {v v' : Val K} (h : SameButRole v v') :
    importOne I w name v = importOne I w name v' := by
  cases h with
  | same => rfl
  | role before after r r' hr hr' h =>
    have e : ∀ k, k ≠ "Role" → _ := fun k hk => item_other (before := before) (after := after) r r' hk
    unfold importOne
    rw [item_role r h, item_role r' h, py_ok_bind, py_ok_bind]
    rw [show (Val.str r.toList : Val K).string? = some r from congrArg some String.ofList_toList,
      show (Val.str r'.toList : Val K).string? = some r' from congrArg some String.ofList_toList,
      roleKind_tensor hr, roleKind_tensor hr', py_ok_bind, py_ok_bind,
      (e "DefaultCoords" (by decide)).1, (e "DefaultIndices" (by decide)).1, (e "Components" (by decide)).1,
      (e "Symbol" (by decide)).1, (e "Symbol" (by decide)).2, (e "Metric" (by decide)).1,
      (e "CoordTransformations" (by decide)).1, (e "CoordTransformations" (by decide)).2]

theorem importEach_role (I : Importer K) (w : World K) {d d' : List (Val K × Val K)}
    (h : List.Forall₂ (fun p q => p.1 = q.1 ∧ SameButRole p.2 q.2) d d') : importEach I w d = importEach I w d' := by
  induction h with
  | nil => rfl
  | @cons p q d d' hp _ ih =>
    obtain ⟨n, v⟩ := p
    obtain ⟨n', v'⟩ := q
    obtain ⟨rfl, hv⟩ := hp
    unfold importEach
    rw [ih, importOne_role I w n hv]

/-- **C88**: two texts whose objects differ only in the name for the role of ordinary tensors are imported alike, by
`import_from_string` and by `import_all_from_string`. -/
theorem C88_roles (E : Engine K) (I : Importer K) (n : Nat) (s s' : List Char) (w : World K)
    {d d' : List (Val K × Val K)} (hs : parseStr I.toReader n s = some (.ok (.dict d)))
    (hs' : parseStr I.toReader n s' = some (.ok (.dict d')))
    (h : List.Forall₂ (fun p q => p.1 = q.1 ∧ SameButRole p.2 q.2) d d') :
    importFromString E I n s w = importFromString E I n s' w ∧
      importAllFromString E I n s w = importAllFromString E I n s' w := by
  have hst : ∀ w : World K, stringToTensors I w (.dict d) = stringToTensors I w (.dict d') := fun w =>
    importEach_role I w h
  constructor
  · unfold importFromString
    rw [hs, hs']
    dsimp only
    have : importFromVal E I (.dict d) w = importFromVal E I (.dict d') w := by
      unfold importFromVal
      rw [PyM.bind_apply, PyM.bind_apply]
      simp only [PyM.world]
      rw [hst w]
    rw [this]
  · unfold importAllFromString
    rw [hs, hs']
    cases clearInstances w with
    | mk r w' =>
      cases r with
      | error e => rfl
      | ok _ =>
        dsimp only
        have : importAllFromVal E I (.dict d) w' = importAllFromVal E I (.dict d') w' := by
          unfold importAllFromVal
          rw [PyM.bind_apply, PyM.bind_apply]
          simp only [PyM.world]
          rw [hst w']
        rw [this]

/-- **C88**: an object with any other role is refused with `KeyError`, and `import_from_string` changes nothing. -/
theorem C88_unknown (E : Engine K) (I : Importer K) (n : Nat) (s : List Char) (w : World K) {name : Val K}
    {before after rest : List (Val K × Val K)} {r : String}
    (hs : parseStr I.toReader n s = some (.ok (.dict ((name, withRole before after r) :: rest))))
    (hn : name.same (.str "Options".toList) = false)
    (h : ∀ p ∈ before, p.1.sameKey (.str "Role".toList) = false) (hr : r ∉ tensorRoles ++ classRoles) :
    importFromString E I n s w = some (.error .keyError, w) := by
  have hk : roleKind (some r) = .error .keyError := by
    simp only [tensorRoles, classRoles, List.cons_append, List.nil_append, List.mem_cons, List.not_mem_nil, or_false,
      not_or] at hr
    simp [roleKind, hr]
  have h1 : stringToTensors I w (.dict ((name, withRole before after r) :: rest)) = .error .keyError := by
    show importEach I w _ = _
    unfold importEach
    rw [hn, if_neg (by simp)]
    unfold importOne
    rw [item_role r h, py_ok_bind,
      show (Val.str r.toList : Val K).string? = some r from congrArg some String.ofList_toList, hk]
    rfl
  unfold importFromString
  rw [hs]
  dsimp only
  unfold importFromVal
  rw [PyM.bind_apply]
  simp only [PyM.world]
  rw [h1]
  rfl

/-- **C59**: after an object has been deleted it cannot be exported. -/
theorem C59_deleted (P : Printer K) {w w' : World K} (hs : Sound w) {t : Id'} (ht : t ∈ w.instances)
    (h : deleteObj t w = (.ok (), w')) : exportObj P w' t = .error .attributeError := by
  rcases deleteObj_cases hs ht with ⟨-, h'⟩ | ⟨-, h'⟩
  · rw [h] at h'; cases h'
  · rw [h] at h'
    cases h'
    obtain ⟨o, h1, -⟩ := hs.inUse t ht
    unfold exportObj
    rw [show (w.objs.modify t fun o => { o with alive := false })[t]? = some { o with alive := false } by
      rw [List.getElem?_modify, h1]; simp]
    rfl

/-! ### Examples -/

section
variable {K : Type} [DecidableEq K]
mutual
/-- Whether two values of the reader are the same. -/
def Val.decEq : (a b : Val K) → Decidable (a = b)
  | .num x, .num y => decidable_of_iff (x = y) (by simp)
  | .str x, .str y => decidable_of_iff (x = y) (by simp)
  | .eq x y, .eq x' y' => decidable_of_iff (x = x' ∧ y = y') (by simp)
  | .list l, .list l' => @decidable_of_iff _ (l = l') (by simp) (Val.decEqList l l')
  | .dict l, .dict l' => @decidable_of_iff _ (l = l') (by simp) (Val.decEqDict l l')
  | .table l m, .table l' m' =>
    @decidable_of_iff _ (l = l' ∧ m = m') (by simp) (@instDecidableAnd _ _ (Val.decEqList l l') (Val.decEqList m m'))
  | .num _, .str _ | .num _, .eq .. | .num _, .list _ | .num _, .dict _ | .num _, .table ..
  | .str _, .num _ | .str _, .eq .. | .str _, .list _ | .str _, .dict _ | .str _, .table ..
  | .eq .., .num _ | .eq .., .str .. | .eq .., .list _ | .eq .., .dict _ | .eq .., .table ..
  | .list _, .num _ | .list _, .str .. | .list _, .eq .. | .list _, .dict _ | .list _, .table ..
  | .dict _, .num _ | .dict _, .str .. | .dict _, .eq .. | .dict _, .list _ | .dict _, .table ..
  | .table .., .num _ | .table .., .str .. | .table .., .eq .. | .table .., .list _ | .table .., .dict .. =>
    isFalse (by simp)
def Val.decEqList : (a b : List (Val K)) → Decidable (a = b)
  | [], [] => isTrue rfl
  | [], _ :: _ => isFalse (by simp)
  | _ :: _, [] => isFalse (by simp)
  | x :: l, y :: m =>
    @decidable_of_iff _ (x = y ∧ l = m) (by simp) (@instDecidableAnd _ _ (Val.decEq x y) (Val.decEqList l m))
def Val.decEqDict : (a b : List (Val K × Val K)) → Decidable (a = b)
  | [], [] => isTrue rfl
  | [], _ :: _ => isFalse (by simp)
  | _ :: _, [] => isFalse (by simp)
  | (x, x') :: l, (y, y') :: m =>
    @decidable_of_iff _ (x = y ∧ x' = y' ∧ l = m) (by simp [and_assoc])
      (@instDecidableAnd _ _ (Val.decEq x y) (@instDecidableAnd _ _ (Val.decEq x' y') (Val.decEqDict l m)))
end

instance : DecidableEq (Val K) := Val.decEq
end

/-- A vector, as the Mathematica package might write it. -/
def Spec.roleText (role : String) : List Char :=
  ("<|\"V\"-><|\"Components\"-><|{{1},\"Plane\"}->{x,2}|>,\"DefaultCoords\"->\"Plane\",\"DefaultIndices\"->{1},\"Role\"->\"" ++
    role ++ "\",\"Symbol\"->v,\"Metric\"->\"Flat\"|>|>").toList

/-- Its entries before the role. -/
def Spec.roleBefore : List (Val ℚ × Val ℚ) :=
  [(.str "Components".toList,
      .table [.list [.list [.num 1], .str "Plane".toList]] [.list [.num 100, .num 2]]),
    (.str "DefaultCoords".toList, .str "Plane".toList), (.str "DefaultIndices".toList, .list [.num 1])]

/-- Its entries after the role. -/
def Spec.roleAfter : List (Val ℚ × Val ℚ) :=
  [(.str "Symbol".toList, .num 103), (.str "Metric".toList, .str "Flat".toList)]

/-- C88: a vector that is said to be a Ricci tensor is imported as the vector of `codeWorld` would be. -/
example : importFromString codeEngine codeImporter 800 (roleText "Ricci Tensor") codeWorld =
      importFromString codeEngine codeImporter 800 (roleText "Tensor") codeWorld ∧
    (importFromString codeEngine codeImporter 800 (roleText "Tensor") codeWorld).map (fun r => (r.1, r.2.objs[3]?)) =
      some (.ok 3, some codeVector) :=
  ⟨(C88_roles codeEngine codeImporter 800 (roleText "Ricci Tensor") (roleText "Tensor") codeWorld
    (d := [(.str ['V'], withRole roleBefore roleAfter "Ricci Tensor")])
    (d' := [(.str ['V'], withRole roleBefore roleAfter "Tensor")]) (by decide +kernel) (by decide +kernel)
    (.cons ⟨rfl, .role _ _ _ _ (by decide) (by decide) (by decide)⟩ .nil)).1, by decide +kernel⟩

/-- C88: a vector that is said to be a spinor is refused. -/
example : importFromString codeEngine codeImporter 800 (roleText "Spinor") codeWorld =
    some (.error .keyError, codeWorld) :=
  C88_unknown codeEngine codeImporter 800 (roleText "Spinor") codeWorld (name := .str ['V']) (before := roleBefore)
    (after := roleAfter) (rest := []) (r := "Spinor") (by decide +kernel) (by decide +kernel) (by decide) (by decide)

/-- C59: the vector of `codeWorld` can be exported until it is deleted. -/
example : ∃ w', deleteObj 2 codeWorld = (.ok (), w') ∧ exportObj codePrinter w' 2 = .error .attributeError ∧
    ∃ s, exportObj codePrinter codeWorld 2 = .ok s :=
  have h : deleteObj 2 codeWorld = (.ok (), (deleteObj 2 codeWorld).2) := by decide +kernel
  ⟨_, h, C59_deleted codePrinter (w := codeWorld)
    (by rw [codeWorld_eq]; exact ⟨by decide, by intro i hi; fin_cases hi <;> exact ⟨_, rfl, rfl⟩⟩)
    (by decide +kernel) h, textOf codeWorld 2, by decide +kernel⟩

end PyOGRe
