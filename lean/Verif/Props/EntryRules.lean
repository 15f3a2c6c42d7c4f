import Verif.Props.EntriesAll

/-!
# The rules that an import of everything adds: C130

`Model/Export.lean` against `Spec/Entries.lean`.
-/

namespace PyOGRe
open Spec
variable {K : Type} [DecidableEq K] [CommRing K]

/-- Only transformation rules change: they are never dropped, and new ones have a source. -/
structure Gains (Src : Id' → Id' → List (Option (Sym × K)) → Prop) (w w' : World K) : Prop where
  instances : w'.instances = w.instances
  length : w'.objs.length = w.objs.length
  objs : ∀ (i : Id') (o : Obj K), w.objs[i]? = some o → ∃ tr, w'.objs[i]? = some { o with trans := tr } ∧
    (∀ c r, tr.get? c = some r → o.trans.get? c = some r ∨ Src i c r) ∧ ∀ c, (o.trans.get? c).isSome → (tr.get? c).isSome

variable {Src : Id' → Id' → List (Option (Sym × K)) → Prop}

omit [DecidableEq K] [CommRing K] in
theorem Gains.refl (w : World K) : Gains Src w w :=
  ⟨rfl, rfl, fun _ o ho => ⟨o.trans, ho, fun _ _ h => Or.inl h, fun _ h => h⟩⟩

omit [DecidableEq K] [CommRing K] in
theorem Gains.trans {w w' w'' : World K} (h : Gains Src w w') (h' : Gains Src w' w'') : Gains Src w w'' := by
  refine ⟨h'.instances.trans h.instances, h'.length.trans h.length, fun i o ho => ?_⟩
  obtain ⟨tr, g1, g2, g3⟩ := h.objs i o ho
  obtain ⟨tr', g4, g5, g6⟩ := h'.objs i _ g1
  exact ⟨tr', g4, fun c r hc => (g5 c r hc).elim (g2 c r) Or.inr, fun c hc => g6 c (g3 c hc)⟩

omit [DecidableEq K] [CommRing K] in
theorem Gains.back {w w' : World K} (h : Gains Src w w') {i : Id'} {o' : Obj K} (ho : w'.objs[i]? = some o') :
    ∃ o, w.objs[i]? = some o ∧ o'.name = o.name ∧ o'.kind = o.kind := by
  have hi : i < w.objs.length := h.length ▸ (List.getElem?_eq_some_iff.1 ho).1
  obtain ⟨tr, g1, -⟩ := h.objs i _ (List.getElem?_eq_getElem hi)
  rw [ho] at g1
  injection g1 with g1
  exact ⟨_, List.getElem?_eq_getElem hi, by rw [g1], by rw [g1]⟩

omit [DecidableEq K] [CommRing K] in
theorem Gains.called {w w' : World K} (h : Gains Src w w') {s : String} {i : Id'} : Called w' s i ↔ Called w s i := by
  constructor
  · rintro ⟨o', g1, g2⟩
    obtain ⟨o, g3, g4, -⟩ := h.back g1
    exact ⟨o, g3, g4 ▸ g2⟩
  · rintro ⟨o, g1, g2⟩
    obtain ⟨tr, g3, -⟩ := h.objs i o g1
    exact ⟨_, g3, g2⟩

omit [DecidableEq K] [CommRing K] in
theorem Gains.first {w w' : World K} (h : Gains Src w w') {s : String} {i : Id'} : FirstCalled w' s i ↔ FirstCalled w s i := by
  unfold FirstCalled
  rw [h.instances]
  simp only [h.called]

omit [DecidableEq K] [CommRing K] in
/-- A loop, with what each step achieves. -/
theorem forEach_gains {α : Type} {f : α → PyM K Unit} {w1 : World K} {Q : α → World K → Prop}
    (hQ : ∀ x w w', Q x w → Gains Src w w' → Q x w') :
    ∀ (l : List α), (∀ x ∈ l, ∀ w w', Gains Src w1 w → f x w = (.ok (), w') → Gains Src w w' ∧ Q x w') →
    ∀ (w w' : World K), Gains Src w1 w → forEach f l w = (.ok (), w') → Gains Src w w' ∧ ∀ x ∈ l, Q x w'
  | [], _, w, w', _, h => by cases h; exact ⟨.refl _, by simp⟩
  | x :: l, hf, w, w', h1, h => by
    unfold forEach at h
    obtain ⟨u, w2, h2, h3⟩ := bind_ok h
    obtain ⟨g1, g2⟩ := hf x (by simp) w w2 h1 h2
    obtain ⟨g3, g4⟩ := forEach_gains hQ l (fun y hy => hf y (List.mem_cons_of_mem _ hy)) w2 w' (h1.trans g1) h3
    refine ⟨g1.trans g3, fun y hy => ?_⟩
    rcases List.mem_cons.1 hy with rfl | hy
    · exact hQ _ _ _ g2 g3
    · exact g4 y hy

/-- There are rules to the target. -/
def Reached (w1 : World K) (i : Id') (p : Ref × Val K) (w : World K) : Prop :=
  ∃ s c o, p.1 = .name (some s) ∧ FirstCalled w1 s c ∧ w.objs[i]? = some o ∧ (o.trans.get? c).isSome

omit [DecidableEq K] [CommRing K] in
theorem Reached.gains {w1 : World K} {i : Id'} {p : Ref × Val K} {w w' : World K} (h : Reached w1 i p w) (hg : Gains Src w w') :
    Reached w1 i p w' := by
  obtain ⟨s, c, o, h1, h2, h3, h4⟩ := h
  obtain ⟨tr, g1, -, g2⟩ := hg.objs i o h3
  exact ⟨s, c, _, h1, h2, g1, g2 c h4⟩

/-- The coordinates that an entry is about. -/
def About (w : World K) (x : Import K) (i : Id') : Prop :=
  i ∈ w.instances ∧ ∃ o, w.objs[i]? = some o ∧ x.name = .val o.name ∧ o.kind = .coordinates

theorem importTrans_gains [Algebra ℚ K] {I : Importer K} {x : Import K} {w1 w w' : World K}
    (hS : ∀ i, About w1 x i → ∀ p ∈ x.trans, ∀ s c r, p.1 = .name (some s) → FirstCalled w1 s c → rulesOf I p.2 = .ok r → Src i c r)
    (h1 : Gains Src w1 w) (h : importTrans I x w = (.ok (), w')) :
    Gains Src w w' ∧ ∀ i, About w1 x i → ∀ p ∈ x.trans, Reached w1 i p w' := by
  unfold importTrans at h
  rw [PyM.bind_apply] at h
  simp only [PyM.world] at h
  cases hn : x.name with
  | other =>
    rw [hn] at h
    cases h
    refine ⟨.refl _, fun i hi => ?_⟩
    obtain ⟨-, o, -, ho, -⟩ := hi
    rw [hn] at ho
    cases ho
  | val name =>
    rw [hn] at h
    dsimp only at h
    have hab : ∀ i, i ∈ (namedInstances w (some name)).filter (fun i => (w.objs[i]?).any fun o => o.kind == .coordinates) ↔ About w1 x i := by
      intro i
      simp only [namedInstances, List.mem_filter, About, h1.instances, hn]
      constructor
      · rintro ⟨⟨g1, g2⟩, g3⟩
        obtain ⟨o, g4, g5⟩ := some_of_any g2
        obtain ⟨o', g6, g7⟩ := some_of_any g3
        rw [g4] at g6
        cases g6
        obtain ⟨o1, e1, e2, e3⟩ := h1.back g4
        simp only [hasName, beq_iff_eq] at g5 g7
        exact ⟨g1, o1, e1, by rw [← e2, g5], by rw [← e3, g7]⟩
      · rintro ⟨g1, o, g2, g3, g4⟩
        obtain ⟨tr, g5, -⟩ := h1.objs i o g2
        injection g3 with g3
        exact ⟨⟨g1, by rw [g5]; simp [hasName, g3]⟩, by rw [g5]; simp [g4]⟩
    refine (forEach_gains (Src := Src) (w1 := w1) (Q := fun i w => ∀ p ∈ x.trans, Reached w1 i p w)
      (fun i w w' hq hg p hp => (hq p hp).gains hg) _ (fun i hi w w' hw hh => ?_) _ _ h1 h).imp_right
      fun g2 i hi => g2 i ((hab i).2 hi)
    · have hi' := (hab i).1 hi
      refine forEach_gains (Src := Src) (w1 := w1) (Q := Reached w1 i) (fun p w w' hq hg => hq.gains hg) _
        (fun p hp w w' hw hh => ?_) _ _ hw hh
      · obtain ⟨target, w2, h3, h4⟩ := bind_ok hh
        cases hr : p.1 with
        | obj j =>
          rw [hr] at h3
          cases h3
          cases h4
        | name s' =>
          rw [hr] at h3
          obtain rfl : w = w2 := congrArg Prod.snd h3
          have hc : (namedInstances w s').head? = target := by
            have := congrArg Prod.fst h3
            injection this
          cases target with
          | none => cases h4
          | some c =>
            obtain ⟨s, e1, e2⟩ := named_first hc
            obtain ⟨rules, w3, h5, h6⟩ := bind_ok h4
            obtain rfl : w = w3 := congrArg Prod.snd h5
            have hrules : rulesOf I p.2 = .ok rules := congrArg Prod.fst h5
            have hsrc := hS i hi' p hp s c rules (by rw [hr, e1]) (hw.first.1 e2) hrules
            rcases addCoordTransformation_eq i c (some rules) w with ⟨e, g⟩ | ⟨⟨o, ho⟩, g⟩
            · rw [h6] at g; cases g
            · rw [h6] at g
              cases g
              refine ⟨⟨rfl, List.length_modify .., fun j oj hj => ?_⟩, s, c, _, by rw [hr, e1], hw.first.1 e2, modify_same ho _, ?_⟩
              · by_cases hij : i = j
                · subst hij
                  refine ⟨_, modify_same hj _, fun c' r hc' => ?_, fun c' hc' => ?_⟩
                  · change (oj.trans.set c rules).get? c' = some r at hc'
                    rw [Dict.get?_set] at hc'
                    split_ifs at hc' with hcc
                    · subst hcc
                      injection hc' with hc'
                      exact Or.inr (hc' ▸ hsrc)
                    · exact Or.inl hc'
                  · change ((oj.trans.set c rules).get? c').isSome
                    rw [Dict.get?_set]
                    split_ifs
                    · rfl
                    · exact hc'
                · exact ⟨oj.trans, by show (w.objs.modify i _)[j]? = _; rw [modify_ne hij, hj], fun _ _ h => Or.inl h, fun _ h => h⟩
              · change ((o.trans.set c rules).get? c).isSome
                rw [Dict.get?_set_self]
                rfl

/-- Imported coordinates have no rules at first. -/
theorem importCoordinates_bare {I : Importer K} {w w' : World K} {x : Import K} {i : Id'}
    (h : importCoordinates I x [] w = (.ok i, w')) :
    ∃ o, i = w.objs.length ∧ w'.objs = w.objs ++ [o] ∧ w'.instances = w.instances ++ [i] ∧ o.trans = [] := by
  unfold importCoordinates at h
  obtain ⟨syms, w2, h3, h4⟩ := bind_ok h
  obtain rfl : w = w2 := congrArg Prod.snd h3
  obtain ⟨rules, w3, h5, h6⟩ := bind_ok h4
  obtain rfl : w = w3 := congrArg Prod.snd h5
  have hr := congrArg Prod.fst h5
  obtain ⟨u, w4, h7, h8⟩ := bind_ok h6
  obtain rfl : w = w4 := congrArg Prod.snd h7
  unfold register at h8
  injection h8 with e1 e2
  injection e1 with e1
  subst e1 e2
  cases hr
  exact ⟨_, rfl, rfl, rfl, rfl⟩

/-- Registered objects exist and have no rules. -/
def Bare (w : World K) : Prop := ∀ i ∈ w.instances, ∃ o, w.objs[i]? = some o ∧ o.trans = []

theorem forEach_bare {I : Importer K} : ∀ (xs : List (Import K)) (w w' : World K), Bare w →
    forEach (fun x => do let _ ← importCoordinates I x []; return ()) xs w = (.ok (), w') → Bare w'
  | [], w, w', hb, h => by cases h; exact hb
  | x :: xs, w, w', hb, h => by
    unfold forEach at h
    obtain ⟨u, w1, h1, h2⟩ := bind_ok h
    obtain ⟨i, w2, h3, h4⟩ := bind_ok h1
    cases h4
    obtain ⟨o, g1, g2, g3, g4⟩ := importCoordinates_bare h3
    refine forEach_bare xs w1 w' (fun j hj => ?_) h2
    rw [g3] at hj
    rcases List.mem_append.1 hj with hj | hj
    · obtain ⟨oj, e1, e2⟩ := hb j hj
      exact ⟨oj, by rw [g2]; exact getElem?_append_old e1, e2⟩
    · obtain rfl : j = i := by simpa using hj
      exact ⟨o, by rw [g2, g1]; simp, g4⟩

/-- A loop that makes tensors keeps the objects there were. -/
theorem forEach_keeps {I : Importer K} {f : Import K → PyM K Id'} {P : Import K → Prop}
    (hf : ∀ x w w' i, P x → f x w = (.ok i, w') →
      ∃ o, i = w.objs.length ∧ w'.objs = w.objs ++ [o] ∧ w'.instances = w.instances ++ [i] ∧ Made I w x i o) :
    ∀ (xs : List (Import K)) (w w' : World K), (∀ x ∈ xs, P x) →
      forEach (fun x => do let _ ← f x; return ()) xs w = (.ok (), w') →
      ∀ (i : Id') (o : Obj K), w.objs[i]? = some o → w'.objs[i]? = some o
  | [], w, w', _, h => by cases h; exact fun _ _ h => h
  | x :: xs, w, w', hP, h => by
    unfold forEach at h
    obtain ⟨u, w1, h1, h2⟩ := bind_ok h
    obtain ⟨i, w2, h3, h4⟩ := bind_ok h1
    cases h4
    obtain ⟨o, g1, g2, g3, g4⟩ := hf x w w1 i (hP x (by simp)) h3
    exact fun j oj hj => forEach_keeps hf xs w1 w' (fun y hy => hP y (List.mem_cons_of_mem _ hy)) h2 j oj
      (by rw [g2]; exact getElem?_append_old hj)

omit [DecidableEq K] in
theorem rulesOf_equations {I : Importer K} {v : Val K} {r : List (Option (Sym × K))} (h : rulesOf I v = .ok r) :
    EquationsFor I.nameOf v r := by
  cases v with
  | list l =>
    refine ⟨l, rfl, ?_⟩
    unfold rulesOf at h
    dsimp only at h
    induction l generalizing r with
    | nil => cases h; exact .nil
    | cons e l ih =>
      rw [List.mapM_cons] at h
      obtain ⟨q, h1, h2⟩ := py_ok_of_bind h
      obtain ⟨qs, h3, h4⟩ := py_ok_of_bind h2
      cases h4
      refine .cons ?_ (ih h3)
      cases e with
      | eq a b =>
        dsimp only at h1
        cases hs : I.nameOf a with
        | none => rw [hs] at h1; cases h1
        | some s => rw [hs] at h1; cases h1; exact ⟨a, b, s, rfl, hs, rfl⟩
      | _ => cases h1
  | _ => cases h

variable [Algebra ℚ K]

/-- **C130**: whenever `import_all_from_string` returns, whatever the text and whatever was done before, imported
coordinates have exactly the transformations that the text lists for them: all rules they have are those of an entry
of the text with their name, for the first registered object with the name of the target, and for every target that an
entry with their name lists there are rules. -/
theorem C130_imported_rules (E : Engine K) (letters : List String) (ks : List (Call K)) (I : Importer K) (n : Nat) (s : List Char)
    (w' : World K) (h : importAllFromString E I n s (history E letters ks fresh) = some (.ok (), w')) :
    ∃ d, parseStr I.toReader n s = some (.ok (.dict d)) ∧
      ∀ i ∈ w'.instances, ∀ o, w'.objs[i]? = some o → o.kind = .coordinates →
        (∀ c r, o.trans.get? c = some r → ∃ s v, RuleGiven d o.name s v ∧ FirstCalled w' s c ∧ EquationsFor I.nameOf v r) ∧
        ∀ s v, RuleGiven d o.name s v → ∃ c r, FirstCalled w' s c ∧ o.trans.get? c = some r := by
  obtain ⟨w0, hc, hi0⟩ := clear_returns (sound_history (E := E) letters ks fresh sound_fresh)
  unfold importAllFromString at h
  rw [hc] at h
  dsimp only at h
  split at h
  · cases h
  · injection h with h; injection h with h _; cases h
  · rename_i v hv
    injection h with h
    unfold importAllFromVal at h
    rw [PyM.bind_apply] at h
    simp only [PyM.world] at h
    obtain ⟨l0, w0', h1, hA⟩ := bind_ok h
    obtain rfl : w0 = w0' := congrArg Prod.snd h1
    have hl : stringToTensors I w0 v = .ok l0 := congrArg Prod.fst h1
    cases v with
    | dict d =>
      refine ⟨d, hv, ?_⟩
      have hr := importEach_reads d l0 hl
      obtain ⟨u1, w1, h2, hB⟩ := bind_ok hA
      obtain ⟨l1, w1', h3, hC⟩ := bind_ok hB
      obtain ⟨u2, w2, h4, hD⟩ := bind_ok hC
      obtain ⟨u3, w2', h5, hE⟩ := bind_ok hD
      obtain ⟨u4, w3, h6, hF⟩ := bind_ok hE
      obtain ⟨l2, w3', h7, h8⟩ := bind_ok hF
      clear h hA hB hC hD hE hF
      obtain ⟨x1, ids1, i1, p1⟩ := forEach_made (I := I) (P := fun x => x.kind = .coordinates)
        (fun x w w' i hk hh => importCoordinates_made hk hh) _ _ _ (fun x hx => by simpa using (List.mem_filter.1 hx).2) h2
      have b1 : Bare w1 := forEach_bare _ _ _ (fun i hi => by rw [hi0] at hi; cases hi) h2
      obtain ⟨rfl, r1⟩ := mapEach_ok (fun x w w' y hh => by
        obtain ⟨c, w1, g1, g2⟩ := bind_ok hh
        cases g2
        exact (resolve_ok g1).1) _ _ _ _ h3
      have q1 : List.Forall₂ (fun (p : Val K × Val K) (y : Import K) => ∃ x, ReadOff I w0 p.1 p.2 x ∧ (y = { x with coords := y.coords }) ∧
          (y.coords = none ↔ x.coords = none)) (objectEntries d) l1 := forall2_step (fun p x y g1 hh => by
        obtain ⟨c, w1, t1, t2⟩ := bind_ok hh
        cases t2
        exact ⟨x, g1, rfl, (resolve_ok t1).2.1⟩) hr r1
      have rules : ∀ (p : Val K × Val K) (y : Import K), (∃ x, ReadOff I w0 p.1 p.2 x ∧ (y = { x with coords := y.coords }) ∧
          (y.coords = none ↔ x.coords = none)) → y.kind = .coordinates →
          (∀ nm, y.name = .val nm → p.1 = .str nm.toList) ∧ Under p.2 "Role" (.str "Coordinates".toList) ∧
          ((∃ t, Under p.2 "CoordTransformations" (.dict t) ∧ y.trans = t.map fun q => (Ref.name q.1.string?, q.2)) ∨
            (Silent p.2 "CoordTransformations" ∧ y.trans = [])) := by
        rintro p y ⟨x, hx, e, -⟩ hk
        have e1 : y.kind = x.kind := by rw [e]
        have e2 : y.name = x.name := by rw [e]
        have e3 : y.trans = x.trans := by rw [e]
        obtain ⟨r, g1, g2⟩ := hx.role
        rw [← e1, hk] at g1
        simp [roleTable] at g1
        rw [g1.1] at g2
        exact ⟨fun nm hnm => hx.name nm (e2 ▸ hnm), g2, e3 ▸ hx.rules hi0⟩
      obtain ⟨gn, reached⟩ := forEach_gains
        (Src := fun i c r => ∃ o s v, w1'.objs[i]? = some o ∧ RuleGiven d o.name s v ∧ FirstCalled w1' s c ∧ EquationsFor I.nameOf v r)
        (w1 := w1') (Q := fun x w => ∀ i, About w1' x i → ∀ p ∈ x.trans, Reached w1' i p w)
        (fun x w w' hq hg i hi p hp => (hq i hi p hp).gains hg) _ (fun y hy w w' hw hh => importTrans_gains (fun i hi p hp s c r e1 e2 e3 => by
          obtain ⟨g1, g2⟩ := List.mem_filter.1 hy
          have hk : y.kind = .coordinates := by simpa using g2
          obtain ⟨p', hp', g3⟩ := mem_forall2 q1.flip g1
          obtain ⟨t1, t2, t3⟩ := rules p' y g3 hk
          obtain ⟨-, o, t4, t5, -⟩ := hi
          rcases t3 with ⟨t, t6, t7⟩ | ⟨-, t7⟩
          · rw [t7] at hp
            obtain ⟨q, t8, rfl⟩ := List.mem_map.1 hp
            injection e1 with e1
            refine ⟨o, s, q.2, t4, ⟨p', hp', t1 _ t5, t2, t, t6, ?_⟩, e2, rulesOf_equations e3⟩
            rw [← string?_eq e1]
            exact t8
          · rw [t7] at hp; cases hp) hw hh) _ _ (.refl _) h4
      obtain ⟨rfl, n1⟩ := forEach_pure (fun x w w' hh => by
        rcases hc' : x.coords with _ | ⟨c⟩ | ⟨r⟩ <;> rw [hc'] at hh <;> cases hh <;> rfl) _ _ _ h5
      have n1' : ∀ y ∈ l1, ∀ r, y.coords ≠ some (.name r) := fun y hy r hn => by
        have := n1 y hy
        rw [hn] at this
        cases this
      have c1 : ∀ y ∈ l1, y.kind ≠ .coordinates → ∃ c, y.coords = some (.obj c) := fun y hy hk => by
        obtain ⟨p, -, x, g1, g2, g3⟩ := mem_forall2 q1.flip hy
        cases hyc : y.coords with
        | none =>
          have e := g1.none.1 (g3.1 hyc)
          rw [g2] at hk
          exact absurd e hk
        | some r =>
          cases r with
          | obj c => exact ⟨c, rfl⟩
          | name r => exact absurd hyc (n1' y hy r)
      have P1 : ∀ x ∈ l1.filter (fun x => x.kind == .metric), x.kind ≠ .coordinates ∧ ∃ c, x.coords = some (.obj c) := fun x hx => by
        obtain ⟨g1, g2⟩ := List.mem_filter.1 hx
        have g3 : x.kind = .metric := by simpa using g2
        have g4 : x.kind ≠ .coordinates := by rw [g3]; decide
        exact ⟨g4, c1 x g1 g4⟩
      obtain ⟨x3, ids2, i3, p2⟩ := forEach_made (I := I) (P := fun x => x.kind ≠ .coordinates ∧ ∃ c, x.coords = some (.obj c))
        (fun x w w' i hk hh => importTensor_made hk.1 hk.2.choose_spec hh) _ _ _ P1 h6
      have k3 := forEach_keeps (I := I) (P := fun x => x.kind ≠ .coordinates ∧ ∃ c, x.coords = some (.obj c))
        (fun x w w' i hk hh => importTensor_made hk.1 hk.2.choose_spec hh) _ _ _ P1 h6
      obtain ⟨rfl, r2⟩ := mapEach_ok (fun x w w' y hh => by
        obtain ⟨c, w1, g1, g2⟩ := bind_ok hh
        obtain ⟨e, -⟩ := resolve_ok g1
        split at g2
        · cases g2
        · cases g2
          exact e) _ _ _ _ h7
      have P2 : ∀ x ∈ l2.filter Import.plain, x.kind ≠ .coordinates ∧ ∃ c, x.coords = some (.obj c) := fun z hz => by
        obtain ⟨g1, g2⟩ := List.mem_filter.1 hz
        obtain ⟨y, hy, hh⟩ := mem_forall2 r2.flip g1
        have e : z = { y with metric := z.metric } := by
          obtain ⟨c, w1, t1, t2⟩ := bind_ok hh
          split at t2
          · cases t2
          · cases t2
            rfl
        have g3 : y.kind ≠ .coordinates := by
          intro g3
          rw [e] at g2
          simp [Import.plain, g3] at g2
        rw [e]
        exact ⟨g3, c1 y hy g3⟩
      obtain ⟨x4, ids3, i4, p3⟩ := forEach_made (I := I) (P := fun x => x.kind ≠ .coordinates ∧ ∃ c, x.coords = some (.obj c))
        (fun x w w' i hk hh => importTensor_made hk.1 hk.2.choose_spec hh) _ _ _ P2 h8
      have k4 := forEach_keeps (I := I) (P := fun x => x.kind ≠ .coordinates ∧ ∃ c, x.coords = some (.obj c))
        (fun x w w' i hk hh => importTensor_made hk.1 hk.2.choose_spec hh) _ _ _ P2 h8
      have f1 : ∀ j ∈ w1'.instances, ∃ o, w1'.objs[j]? = some o := fun j hj => (b1 j hj).imp fun _ g => g.1
      have x2 : Ext w1' w2' := ⟨⟨[], by rw [gn.instances]; simp⟩, fun i o ho => (gn.objs i o ho).imp fun _ g => g.1⟩
      have fc : ∀ {s c}, FirstCalled w1' s c → FirstCalled w' s c := FirstCalled.ext f1 (x2.trans (x3.trans x4))
      intro i hi o ho hk
      have hi1 : i ∈ w1'.instances := by
        rw [i4, i3, gn.instances] at hi
        rcases List.mem_append.1 hi with hi | hi
        · rcases List.mem_append.1 hi with hi | hi
          · exact hi
          · obtain ⟨z, g1, g2⟩ := mem_forall2 p2 hi
            obtain ⟨o', g3, g4⟩ := g2.ext x4
            rw [ho] at g3
            cases g3
            exact absurd (g4.kind.symm.trans hk) (P1 z g1).1
        · obtain ⟨z, g1, o', g3, g4⟩ := mem_forall2 p3 hi
          rw [ho] at g3
          cases g3
          exact absurd (g4.kind.symm.trans hk) (P2 z g1).1
      obtain ⟨o1, g1, g2⟩ := b1 i hi1
      obtain ⟨tr, g3, g4, -⟩ := gn.objs i o1 g1
      have g5 := k4 _ _ (k3 _ _ g3)
      rw [ho] at g5
      injection g5 with g5
      subst g5
      dsimp only at hk ⊢
      refine ⟨fun c r hcr => ?_, fun s v hs => ?_⟩
      · rcases g4 c r hcr with g6 | ⟨o2, s, v, g6, g7, g8, g9⟩
        · rw [g2] at g6; cases g6
        · rw [g1] at g6
          cases g6
          exact ⟨s, v, g7, fc g8, g9⟩
      · obtain ⟨p, t1, t2, t3, t, t4, t5⟩ := hs
        obtain ⟨y, y1, y2⟩ := mem_forall2 q1 t1
        have yk : y.kind = .coordinates := by
          obtain ⟨x, hx, e, -⟩ := y2
          obtain ⟨r, g6, g7⟩ := hx.role
          have e1 : y.kind = x.kind := by rw [e]
          have g8 := (item_of_under g7).1.symm.trans (item_of_under t3).1
          injection g8 with g8
          injection g8 with g8
          rw [String.toList_inj.1 g8] at g6
          simp [roleTable] at g6
          exact e1.trans g6.1
        obtain ⟨r3, -, r4⟩ := rules p y y2 yk
        have yn : y.name = .val o1.name := by
          obtain ⟨x, z1, z2⟩ := mem_forall2 r1.flip y1
          have e : y = { x with coords := y.coords } := by
            obtain ⟨c, w1, e1, e2⟩ := bind_ok z2
            cases e2
            rfl
          have e1 : y.kind = x.kind := by rw [e]
          have e2 : y.name = x.name := by rw [e]
          obtain ⟨j, -, oj, -, hm⟩ := mem_forall2 p1.flip (List.mem_filter.2 ⟨z1, by simp [← e1, yk]⟩)
          have e3 := (r3 _ (e2.trans hm.name)).symm.trans t2
          injection e3 with e3
          rw [e2, hm.name, String.toList_inj.1 e3]
        rcases r4 with ⟨t', r5, r6⟩ | ⟨r5, -⟩
        · have e1 := (item_of_under r5).1.symm.trans (item_of_under t4).1
          injection e1 with e1
          injection e1 with e1
          subst e1
          obtain ⟨s', c, o2, e2, e3, e4, e5⟩ := reached y (List.mem_filter.2 ⟨y1, by simp [yk]⟩) i ⟨hi1, o1, g1, yn, hk⟩
            (.name (some s), v) (by rw [r6]; exact List.mem_map.2 ⟨_, t5, by simp [Val.string?]⟩)
          cases e2
          rw [g3] at e4
          cases e4
          obtain ⟨r, hr'⟩ := Option.isSome_iff_exists.1 e5
          exact ⟨c, r, fc e3, hr'⟩
        · exact absurd t4 (r5 _)
    | _ => cases hl

/-! ### Example -/

/-- Two coordinate systems; the first has rules to the second, which comes later in the text. -/
def Spec.ruledText : List Char :=
  ("<|\"Plane\"-><|\"Components\"-><|{{1},\"Plane\"}->{x,y}|>,\"DefaultCoords\"->\"Plane\",\"DefaultIndices\"->{1}," ++
    "\"Role\"->\"Coordinates\",\"CoordTransformations\"-><|\"Other\"->{x->2,y->3}|>|>," ++
    "\"Other\"-><|\"Components\"-><|{{1},\"Other\"}->{u,v}|>,\"DefaultCoords\"->\"Other\",\"DefaultIndices\"->{1}," ++
    "\"Role\"->\"Coordinates\"|>|>").toList

/-- The hypothesis of C130 is met, in a session with other objects, and there are rules. -/
example : ∃ w' d, parseStr codeImporter.toReader 3000 ruledText = some (.ok (.dict d)) ∧
    (∃ i ∈ w'.instances, ∃ o, w'.objs[i]? = some o ∧ o.kind = .coordinates ∧ o.name = "Plane" ∧
      o.trans.flatMap Prod.snd = [some ("x", 2), some ("y", 3)]) ∧
    ∀ i ∈ w'.instances, ∀ o, w'.objs[i]? = some o → o.kind = .coordinates →
      ∀ c r, o.trans.get? c = some r → ∃ s v, RuleGiven d o.name s v ∧ FirstCalled w' s c ∧ EquationsFor codeImporter.nameOf v r := by
  have h : (importAllFromString codeEngine codeImporter 3000 ruledText codeWorld).any (fun r =>
      r.1 == .ok () && r.2.instances.any fun i => (r.2.objs[i]?).any fun o => o.kind == .coordinates && o.name == "Plane" &&
        o.trans.flatMap Prod.snd == [some ("x", 2), some ("y", 3)]) = true := by
    decide +kernel
  obtain ⟨⟨r, w'⟩, h1, h2⟩ := some_of_any h
  simp only [Bool.and_eq_true, beq_iff_eq] at h2
  obtain ⟨rfl, h3⟩ := h2
  obtain ⟨i, hi, h4⟩ := List.any_eq_true.1 h3
  obtain ⟨o, ho, h5⟩ := some_of_any h4
  simp only [Bool.and_eq_true, beq_iff_eq] at h5
  obtain ⟨d, g1, g2⟩ := C130_imported_rules _ _ _ _ _ _ _ h1
  exact ⟨w', d, g1, ⟨i, hi, o, ho, h5.1.1, h5.1.2, h5.2⟩, fun i hi o ho hk => (g2 i hi o ho hk).1⟩

end PyOGRe
