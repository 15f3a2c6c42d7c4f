import Verif.Props.EntryRules

/-!
# The rules of coordinates that are imported alone: C131

`Model/Export.lean` against `Spec/Entries.lean`.
-/

namespace PyOGRe
open Spec
variable {K : Type} [DecidableEq K] [CommRing K]

omit [DecidableEq K] [CommRing K] in
theorem named_called {w : World K} {r : Option String} {c : Id'} :
    c ∈ namedInstances w r ↔ ∃ s, r = some s ∧ c ∈ w.instances ∧ Called w s c := by
  cases r with
  | none => simp [namedInstances]
  | some s =>
    simp only [namedInstances, List.mem_filter, Option.some.injEq, exists_eq_left', Called]
    refine and_congr_right fun _ => ?_
    cases w.objs[c]? <;> simp [hasName]

omit [DecidableEq K] [CommRing K] in
theorem mem_transOf {w : World K} {c : Id'} {v : Val K} : ∀ t : List (Val K × Val K),
    (Ref.obj c, v) ∈ transOf w t ↔ ∃ k, (k, v) ∈ t ∧ c ∈ namedInstances w k.string?
  | [] => by simp [transOf]
  | (k, v') :: t => by
    rw [transOf, List.mem_append, mem_transOf t]
    have : (Ref.obj c, v) ∈ (match namedInstances w k.string? with
        | [] => [(Ref.name k.string?, v')]
        | l => l.map fun i => (Ref.obj i, v')) ↔ v = v' ∧ c ∈ namedInstances w k.string? := by
      cases namedInstances w k.string? with
      | nil => simp
      | cons a l =>
        simp only [List.mem_map, Prod.mk.injEq, Ref.obj.injEq]
        constructor
        · rintro ⟨i, h1, rfl, rfl⟩; exact ⟨rfl, h1⟩
        · rintro ⟨rfl, h1⟩; exact ⟨c, h1, rfl, rfl⟩
    refine (or_congr this Iff.rfl).trans ?_
    constructor
    · rintro (⟨rfl, h⟩ | ⟨k', h1, h2⟩)
      · exact ⟨k, by simp, h⟩
      · exact ⟨k', List.mem_cons_of_mem _ h1, h2⟩
    · rintro ⟨k', h1, h2⟩
      rcases List.mem_cons.1 h1 with h1 | h1
      · cases h1; exact Or.inl ⟨rfl, h2⟩
      · exact Or.inr ⟨k', h1, h2⟩

omit [DecidableEq K] in
theorem rules_each {I : Importer K} : ∀ (l : List (Ref × Val K)) (rs : List (Ref × List (Option (Sym × K)))),
    (l.mapM fun p => do let r ← rulesOf I p.2; return (p.1, r)) = .ok rs →
    List.Forall₂ (fun p q => q.1 = p.1 ∧ rulesOf I p.2 = .ok q.2) l rs
  | [], rs, h => by cases h; exact .nil
  | p :: l, rs, h => by
    rw [List.mapM_cons] at h
    obtain ⟨q, h1, h2⟩ := py_ok_of_bind h
    obtain ⟨qs, h3, h4⟩ := py_ok_of_bind h2
    obtain ⟨r, h5, h6⟩ := py_ok_of_bind h1
    cases h4
    cases h6
    exact .cons ⟨rfl, h5⟩ (rules_each l qs h3)

omit [DecidableEq K] [CommRing K] in
theorem foldRules_get {c : Id'} : ∀ (l : List (Ref × List (Option (Sym × K)))) (d : RuleDict K),
    (∀ r, (l.foldl (fun d p => match p.1 with | .obj i => d.set i p.2 | _ => d) d).get? c = some r →
      d.get? c = some r ∨ (Ref.obj c, r) ∈ l) ∧
    ((d.get? c).isSome ∨ (∃ r, (Ref.obj c, r) ∈ l) →
      ((l.foldl (fun d p => match p.1 with | .obj i => d.set i p.2 | _ => d) d).get? c).isSome)
  | [], d => by simp
  | (a, r') :: l, d => by
    rw [List.foldl_cons]
    obtain ⟨h1, h2⟩ := foldRules_get l (match a with | .obj i => d.set i r' | _ => d)
    cases a with
    | name s =>
      dsimp only at h1 h2 ⊢
      refine ⟨fun r hr => (h1 r hr).imp_right (List.mem_cons_of_mem _), fun h => h2 (h.imp_right ?_)⟩
      rintro ⟨r, hr⟩
      exact ⟨r, by simpa using hr⟩
    | obj i =>
      dsimp only at h1 h2 ⊢
      refine ⟨fun r hr => ?_, fun h => h2 ?_⟩
      · rcases h1 r hr with g | g
        · rw [Dict.get?_set] at g
          split_ifs at g with hi
          · subst hi
            cases g
            exact Or.inr (by simp)
          · exact Or.inl g
        · exact Or.inr (List.mem_cons_of_mem _ g)
      · rw [Dict.get?_set]
        split_ifs with hi
        · exact Or.inl rfl
        · refine h.imp_right ?_
          rintro ⟨r, hr⟩
          refine ⟨r, ?_⟩
          rcases List.mem_cons.1 hr with hr | hr
          · cases hr; exact absurd rfl hi
          · exact hr

/-- **C131**: coordinates that `import_from_string` makes, from any text in any session, have exactly the rules that
the text lists for registered objects: all rules they have are listed in the first entry of the text for the name of the
target, and every registered object whose name is listed there has rules. -/
theorem C131_imported_rules_alone (E : Engine K) (I : Importer K) (n : Nat) (s : List Char) (w w' : World K) (i : Id')
    (h : importFromString E I n s w = some (.ok i, w')) :
    ∃ d key entry o, parseStr I.toReader n s = some (.ok (.dict d)) ∧ FirstEntry d key entry ∧ w'.objs[i]? = some o ∧
      (o.kind = .coordinates →
        (∀ c r, o.trans.get? c = some r → ∃ t s v, Under entry "CoordTransformations" (.dict t) ∧ (.str s.toList, v) ∈ t ∧
          c ∈ w.instances ∧ Called w s c ∧ EquationsFor I.nameOf v r) ∧
        ∀ t s v c, Under entry "CoordTransformations" (.dict t) → (.str s.toList, v) ∈ t → c ∈ w.instances → Called w s c →
          ∃ r, o.trans.get? c = some r) := by
  unfold importFromString at h
  split at h
  · cases h
  · injection h with h; injection h with h _; cases h
  · rename_i v hv
    injection h with h
    unfold importFromVal at h
    rw [PyM.bind_apply] at h
    simp only [PyM.world] at h
    obtain ⟨l, w1, h1, h2⟩ := bind_ok h
    rw [PyM.lift_apply] at h1
    have hw1 : w = w1 := congrArg Prod.snd h1
    have hl : stringToTensors I w v = .ok l := congrArg Prod.fst h1
    subst hw1
    cases v with
    | dict d =>
      cases l with
      | nil => cases h2
      | cons x l =>
        obtain ⟨key, entry, hf, hx⟩ := importEach_first d hl
        refine ⟨d, key, entry, ?_⟩
        dsimp only at h2
        cases hxc : x.coords with
        | none =>
          rw [hxc] at h2
          dsimp only at h2
          unfold importCoordinates at h2
          obtain ⟨syms, w2, h3, h4⟩ := bind_ok h2
          obtain rfl : w = w2 := congrArg Prod.snd h3
          obtain ⟨rules, w3, h5, h6⟩ := bind_ok h4
          obtain rfl : w = w3 := congrArg Prod.snd h5
          have hr := rules_each _ _ (congrArg Prod.fst h5)
          obtain ⟨u, w4, h7, h8⟩ := bind_ok h6
          obtain rfl : w = w4 := congrArg Prod.snd h7
          unfold register at h8
          injection h8 with e1 e2
          injection e1 with e1
          subst e1 e2
          refine ⟨_, hv, hf, List.getElem?_concat_length, fun _ => ⟨fun c r hc => ?_, fun t s v c ht hs hc hc' => ?_⟩⟩
          · rcases (foldRules_get rules []).1 r hc with g | g
            · cases g
            · obtain ⟨p, g1, g2, g3⟩ := mem_forall2 hr.flip g
              obtain ⟨a, v⟩ := p
              dsimp only at g2 g3
              subst g2
              rcases hx.listed with ⟨t, g4, g5⟩ | ⟨-, g5⟩
              · rw [g5] at g1
                obtain ⟨k, g6, g7⟩ := (mem_transOf t).1 g1
                obtain ⟨s, g8, g9, g10⟩ := named_called.1 g7
                exact ⟨t, s, v, g4, by rw [← string?_eq g8]; exact g6, g9, g10, rulesOf_equations g3⟩
              · rw [g5] at g1; cases g1
          · rcases hx.listed with ⟨t', g4, g5⟩ | ⟨g4, -⟩
            · have e1 := (item_of_under g4).1.symm.trans (item_of_under ht).1
              injection e1 with e1
              injection e1 with e1
              subst e1
              have g6 : (Ref.obj c, v) ∈ x.trans := by
                rw [g5]
                exact (mem_transOf t').2 ⟨_, hs, named_called.2 ⟨s, by simp [Val.string?], hc, hc'⟩⟩
              obtain ⟨q, g7, g8, -⟩ := mem_forall2 hr g6
              obtain ⟨a, r⟩ := q
              dsimp only at g8
              subst g8
              exact Option.isSome_iff_exists.1 ((foldRules_get rules []).2 (Or.inr ⟨r, g7⟩))
            · exact absurd ht (g4 _)
        | some r =>
          have hk : x.kind ≠ .coordinates := by
            intro hk
            rw [hx.none.2 hk] at hxc
            cases hxc
          rw [hxc] at h2
          dsimp only at h2
          obtain ⟨cv, hcv, hcr⟩ := hx.coords hk
          rw [hcr] at hxc
          cases hxc
          obtain ⟨c, w2, h3, h4⟩ := bind_ok h2
          obtain rfl : w = w2 := congrArg Prod.snd h3
          cases c with
          | none => cases h4
          | some c =>
            dsimp only at h4
            obtain ⟨o, g1, g2, -, g4⟩ := importTensor_made (I := I) (x := { x with coords := some (.obj c) }) hk rfl h4
            exact ⟨o, hv, hf, by rw [g2, g1]; simp, fun hk' => absurd (g4.kind.symm.trans hk') hk⟩
    | _ => cases hl

/-! ### Example -/

/-- Coordinates with rules to a system of the session. -/
def Spec.ruledAlone : List Char :=
  ("<|\"Other\"-><|\"Components\"-><|{{1},\"Other\"}->{u,v}|>,\"DefaultCoords\"->\"Other\",\"DefaultIndices\"->{1}," ++
    "\"Role\"->\"Coordinates\",\"CoordTransformations\"-><|\"Plane\"->{u->2,v->3},\"Nowhere\"->{u->1,v->1}|>|>|>").toList

/-- The hypothesis of C131 is met: there are rules to the registered system, and none to the unknown one. -/
example : (importFromString codeEngine codeImporter 3000 ruledAlone codeWorld).any (fun r =>
      r.1 == .ok 3 && (r.2.objs[3]?).any fun o => o.kind == .coordinates && o.trans == [(0, [some ("u", 2), some ("v", 3)])]) = true := by
  decide +kernel

end PyOGRe
