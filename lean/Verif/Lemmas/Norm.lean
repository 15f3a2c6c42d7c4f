import Verif.Lemmas.Provided
import Std.Data.String.ToNat

/-! Helper lemmas: the norm of a tensor. -/

namespace PyOGRe
open Spec Finset
variable {K : Type} [CommRing K] [DecidableEq K] [Algebra ℚ K] {E : Engine K} {G : Ground K} {V : View K} {w : World K}

theorem normLabels_nodup (r : Nat) : (normLabels r).Nodup := by
  unfold normLabels
  refine List.Nodup.map ?_ List.nodup_range
  intro i j h
  have h1 : ("x" ++ toString i).toList = ("x" ++ toString j).toList := congrArg String.toList h
  rw [String.toList_append, String.toList_append] at h1
  exact Nat.repr_injective (String.toList_injective (List.append_cancel_left h1))

theorem normLabels_length (r : Nat) : (normLabels r).length = r := by simp [normLabels]

/-- The formula in `CalcNormSquared`. -/
def normFormula (t : Id') (r : Nat) : Formula K := .mul (.tensor t (normLabels r)) (.tensor t (normLabels r))

omit [CommRing K] [DecidableEq K] [Algebra ℚ K] in
theorem normFormula_labels (t : Id') (r : Nat) : (normFormula t r : Formula K).labels = [] := by
  have h : (Formula.tensor t (normLabels r) : Formula K).labels = normLabels r := single_nodup (normLabels_nodup r)
  simp [normFormula, Formula.labels, h, single_nodup (normLabels_nodup r)]

omit [DecidableEq K] [Algebra ℚ K] in
theorem normFormula_value {F : Id' → TField K} {t : Id'} (hc : Config (F t).ix.length (F t).ix)
    {pos : Sym → Int} (hpos : (normLabels (F t).ix.length).map pos = (F t).ix) {ρ : Sym → Nat} (hρ : Values G.n ρ) :
    ((normFormula t (F t).ix.length).mean E G F).value pos ρ = normSquared G (F t) := by
  set L := normLabels (F t).ix.length with hL
  have hn : L.Nodup := normLabels_nodup _
  have hl : L.length = (F t).ix.length := normLabels_length _
  show contracted G (sharedOf (single L) (single L)) _ _ pos ρ = _
  rw [single_nodup hn]
  have hsh : sharedOf L L = L := by unfold sharedOf; simp
  rw [hsh]
  unfold contracted normSquared
  rw [← sumOver_tuples, hl]
  refine congrArg List.sum (List.map_congr_left fun J hJ => ?_)
  obtain ⟨j1, j2⟩ := mem_tuples.1 hJ
  have hv := values_assign hρ L J j2
  have hmap : L.map (assign ρ L J) = J := by
    apply List.ext_getElem (by rw [List.length_map, hl, j1])
    intro i h1 h2
    rw [List.getElem_map, assign_apply ρ L hn J (by rw [j1, hl]), if_pos (List.getElem_mem _),
      hn.idxOf_getElem]
    simp [h2]
  rw [tensor_default hn hv hpos, tensor_value t hn, hmap]
  unfold TField.at
  rw [hmap]
  congr 2
  rw [← hpos, List.map_map]
  refine List.map_congr_left fun s hs => ?_
  simp [turned, hs]

/-- What `CalcNormSquared` computes. -/
theorem does_normSquared (hE : ∀ x, E.simp x = x) (hS : Scene G V w) {t : Id'} {D : TField K} (ht : V t = some D)
    (hn : D.name ≠ "TEMP") (hc : D.coords = G.c)
    (hN : ∀ i ∈ w.instances, ∀ o, w.objs[i]? = some o → o.name ≠ D.name ++ " Norm Squared") :
    Does (calcNormSquared E t) w fun r w' => ∃ V' D', Scene G V' w' ∧ V.Keeps V' ∧ Leaves (· = r) w w' ∧
      New w w' r ∧ V' r = some D' ∧ D'.coords = G.c ∧ D'.name = D.name ++ " Norm Squared" ∧ D'.ix = [] ∧
      D'.val [] = normSquared G D := by
  obtain ⟨o, h1, h2⟩ := hS.shows _ _ ht
  unfold calcNormSquared
  refine Does.step (getObj_ok h1 h2.alive) ?_
  rw [h2.name, h2.indices]
  unfold unlessNamed
  refine Does.step (findByName_none hN) ?_
  dsimp only
  have hnd := normLabels_nodup D.ix.length
  have hok : (normFormula t D.ix.length : Formula K).OK G V fun _ => D :=
    ⟨⟨ht, hc, normLabels_length _, fun s => le_trans (List.nodup_iff_count_le_one.1 hnd s) (by decide), Or.inl hnd⟩,
      ht, hc, normLabels_length _, fun s => le_trans (List.nodup_iff_count_le_one.1 hnd s) (by decide), Or.inl hnd⟩
  have main := stores_formula' (F := fun _ => D) hE hS (fun _ _ h => h) (onlyTemps_refl w) hS hok (order := [])
    (Or.inl rfl) (requested := []) (by rw [if_pos rfl, normFormula_labels]) (s0 := t) (mf := Obj.metric)
    (fun _ h => h) ht hn hc (ixo := none) (ix := []) ⟨rfl, by simp⟩ (Or.inr ⟨rfl, rfl⟩) (kind := .tensor) (Or.inl rfl)
    " Norm Squared" "" (suffix_ne (by decide))
  simp only [normFormula, Formula.run, Formula.runWith, pyM_bind_assoc] at main
  simp only [productOf, storeResult, pyM_bind_assoc]
  refine Does.mono main ?_
  rintro r w' ⟨V', D', e1, e2, e3, e4, -, e6, e7, e8, e9, e10⟩
  refine ⟨V', D', e1, e2, e3, e4, e6, e7, e8, e9, ?_⟩
  have hcfg := h2.config
  have hpos : (normLabels D.ix.length).map (posOf (normLabels D.ix.length) D.ix) = D.ix :=
    map_posOf hnd (normLabels_length _)
  have := e10 (posOf (normLabels D.ix.length) D.ix) (fun _ => 0) (positions_posOf _ hcfg) (fun _ => hS.pos) rfl
  rw [List.map_nil] at this
  rw [this]
  exact normFormula_value (F := fun _ => D) hcfg hpos fun _ => hS.pos

omit [DecidableEq K] [Algebra ℚ K] in
theorem sum_flatMap_range {α : Type} (n : Nat) (f : Nat → List α) (h : α → K) :
    (((List.range n).flatMap f).map h).sum = ∑ i ∈ range n, ((f i).map h).sum := by
  induction n with
  | zero => simp
  | succ n ih => rw [List.range_succ, List.flatMap_append, List.map_append, List.sum_append, ih, sum_range_succ]; simp

omit [DecidableEq K] [Algebra ℚ K] in
theorem metric_norm (hinv : Inverse G.n G.g G.gi) (hsym : ∀ i j, i < G.n → j < G.n → G.g i j = G.g j i)
    {D : TField K} (hix : D.ix = [-1, -1]) (h1 : ∀ i j, i < G.n → j < G.n → D.comp G [-1, -1] [i, j] = G.g i j)
    (h2 : ∀ i j, i < G.n → j < G.n → D.comp G [1, 1] [i, j] = G.gi i j) : normSquared G D = G.n := by
  have hv : ∀ i j, i < G.n → j < G.n → D.val [i, j] = G.g i j := by
    intro i j hi hj
    rw [← h1 i j hi hj]
    have := comp_self (G := G) (D := D) (J := [i, j]) (by simp [hi, hj]) (by rw [hix]; rfl)
    rw [hix] at this
    exact this.symm
  unfold normSquared
  rw [hix, show ([-1, -1] : List Int).length = 2 from rfl]
  unfold tuples
  rw [sum_flatMap_range]
  have hd : ∀ i ∈ range G.n, ∑ j ∈ range G.n, G.g i j * G.gi j i = 1 := by
    intro i hi
    have := (hinv i i (mem_range.1 hi) (mem_range.1 hi)).1
    simpa [matMul, delta] using this
  rw [show (G.n : K) = ∑ i ∈ range G.n, (1 : K) by simp]
  refine sum_congr rfl fun i hi => ?_
  rw [← hd i hi, List.map_map]
  unfold tuples
  rw [sum_flatMap_range]
  refine sum_congr rfl fun j hj => ?_
  have hi' := mem_range.1 hi
  have hj' := mem_range.1 hj
  show D.val [i, j] * D.comp G [1, 1] [i, j] + 0 = _
  rw [hv i j hi' hj', h2 i j hi' hj', inverse_symm hinv hsym i j hi' hj', add_zero]

omit [CommRing K] [DecidableEq K] [Algebra ℚ K] in
/-- The object that has just been registered is the only one with its name. -/
theorem named_new [CommRing K] {V1 : View K} {w1 : World K} {r : Id'} {D : TField K} {name : String}
    (e1 : Scene G V1 w1) (e3 : Leaves (· = r) w w1) (e4 : r ∈ w1.instances) (e5 : V1 r = some D) (e7 : D.name = name)
    (hnm : name ≠ "TEMP") (hN : ∀ i ∈ w.instances, ∀ o, w.objs[i]? = some o → o.name ≠ name) :
    findByName name w1 = (.ok (some r), w1) := by
  obtain ⟨o, o1, -⟩ := e1.shows _ _ e5
  obtain ⟨t, ht⟩ := findByName_some e4 o1 ((scene_object_name e1 e5 o1).trans e7)
  have hf : w1.instances.find? (fun i => (w1.objs[i]?).any (hasName name)) = some t := by
    have := congrArg Prod.fst ht
    simpa [findByName] using this
  have t1 := List.mem_of_find?_eq_some hf
  have t2 := List.find?_some hf
  obtain ⟨ot, t3, -⟩ := e1.registry.inUse t t1
  rw [t3] at t2
  have t4 : ot.name = name := by simpa [hasName] using t2
  by_cases hlt : t < w.objs.length
  · obtain ⟨o', k1, -, k3, -, -, -, -, -, -, k4⟩ := e3.1 t _ (List.getElem?_eq_getElem hlt)
    rw [t3] at k1; cases k1
    have hnt : w.objs[t].name ≠ "TEMP" := by rw [← k3, t4]; exact hnm
    exact absurd (k3.symm.trans t4) (hN t ((k4 hnt).2.1 t1) _ (List.getElem?_eq_getElem hlt))
  · rcases e3.2 t t1 (Nat.le_of_not_lt hlt) with rfl | ⟨o', k1, k2⟩
    · exact ht
    · rw [t3] at k1; cases k1
      rw [t4] at k2
      exact absurd k2 hnm

omit [CommRing K] [DecidableEq K] [Algebra ℚ K] in
theorem find?_congr_of_mem {α : Type} {l : List α} {p q : α → Bool} (h : ∀ x ∈ l, p x = q x) :
    l.find? p = l.find? q := by
  induction l with
  | nil => rfl
  | cons a l ih =>
    rw [List.find?_cons, List.find?_cons, h a (by simp), ih fun x hx => h x (by simp [hx])]

omit [CommRing K] [DecidableEq K] [Algebra ℚ K] in
/-- A newly registered object does not change what is found. -/
theorem findByName_append {w' : World K} {o : Obj K} {i r : Id'} {name : String} (hR : RegistryOK w)
    (ho : w'.objs = w.objs ++ [o]) (hi : w'.instances = w.instances ++ [i])
    (hf : findByName name w = (.ok (some r), w)) : findByName name w' = (.ok (some r), w') := by
  have hf : w.instances.find? (fun i => (w.objs[i]?).any (hasName name)) = some r := by
    have := congrArg Prod.fst hf
    simpa [findByName] using this
  show (Except.ok (w'.instances.find? fun i => (w'.objs[i]?).any (hasName name)), w') = _
  have hx : w.instances.find? (fun i => (w'.objs[i]?).any (hasName name)) = some r := by
    rw [← hf]
    refine find?_congr_of_mem fun i hi => ?_
    obtain ⟨oi, hoi, -⟩ := hR.inUse i hi
    rw [ho, getElem?_append_old hoi, hoi]
  rw [hi, List.find?_append, hx]
  rfl

end PyOGRe
