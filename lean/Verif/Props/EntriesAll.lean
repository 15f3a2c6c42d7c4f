import Verif.Lemmas.EntriesAll
import Verif.Props.Registry

/-!
# What an import of everything makes: C129

`Model/Export.lean` against `Spec/Entries.lean`.
-/

namespace PyOGRe
open Spec
variable {K : Type} [DecidableEq K] [CommRing K]

/-- Names keep their meanings. -/
theorem FirstCalled.ext {w w' : World K} {s : String} {i : Id'} (hf : ∀ j ∈ w.instances, ∃ o, w.objs[j]? = some o) (he : Ext w w')
    (h : FirstCalled w s i) : FirstCalled w' s i := by
  obtain ⟨b, a, h1, ⟨o, h2, h3⟩, h4⟩ := h
  obtain ⟨l, h5⟩ := he.instances
  obtain ⟨tr, h6⟩ := he.objs i o h2
  refine ⟨b, a ++ l, by rw [h5, h1]; simp, ⟨_, h6, h3⟩, fun j hj hc => h4 j hj ?_⟩
  obtain ⟨oj, g1⟩ := hf j (by rw [h1]; exact List.mem_append_left _ hj)
  obtain ⟨tr', g2⟩ := he.objs j oj g1
  obtain ⟨o', g3, g4⟩ := hc
  rw [g2] at g3
  injection g3 with g3
  exact ⟨oj, g1, by rw [← g4, ← g3]⟩

/-- Arguments that have been read from an entry, with the names replaced by objects. -/
structure Told (I : Importer K) (w : World K) (p : Val K × Val K) (z : Import K) : Prop where
  read : ∃ w0 x, ReadOff I w0 p.1 p.2 x ∧ z.kind = x.kind ∧ z.name = x.name ∧ z.symbol = x.symbol ∧ z.indices = x.indices ∧
    z.comps = x.comps
  coords : z.kind ≠ .coordinates → ∀ c, z.coords = some (.obj c) → ∃ s, Under p.2 "DefaultCoords" (.str s.toList) ∧ FirstCalled w s c
  metric : z.kind ≠ .coordinates → z.kind ≠ .metric → ∀ m, z.metric = some (.obj m) →
    ∃ s, Under p.2 "Metric" (.str s.toList) ∧ FirstCalled w s m

theorem Told.described {I : Importer K} {w : World K} {p : Val K × Val K} {z : Import K} {i : Id'} (h : Told I w p z)
    (hp : Present I w i z) : ∃ o, w.objs[i]? = some o ∧ Described I.nameOf w (FirstCalled w) p.1 p.2 i o := by
  obtain ⟨o, ho, hm⟩ := hp
  obtain ⟨w0, x, hx, e1, e2, e3, e4, e5⟩ := h.read
  have hk := hm.kind
  refine ⟨o, ho, PyOGRe.described hx hm.alive (hk.trans e1) (e2 ▸ hm.name) rfl (e3 ▸ hm.symbol) rfl (hm.indices.trans e4)
    (e4 ▸ hm.signs) (fun h1 => ?_) (fun h1 h2 => ?_) hm.itself (e5 ▸ hm.comps) fun h1 => ?_⟩
  · obtain ⟨g1, oc, g2, g3⟩ := hm.coords h1
    obtain ⟨s, g4, g5⟩ := h.coords (hk ▸ h1) _ g1
    exact ⟨s, oc, g4, g5, g2, g3⟩
  · obtain ⟨g1, oc, g2, g3⟩ := hm.metric h1 h2
    obtain ⟨s, g4, g5⟩ := h.metric (hk ▸ h1) (hk ▸ h2) _ g1
    exact ⟨s, oc, g4, g5, g2, g3⟩
  · obtain ⟨g1, g2⟩ := hm.syms h1
    rw [e5] at g1 g2
    refine ⟨g1, ?_⟩
    obtain ⟨_, _, _, _, _, _, _, -, -, -, -, -, -, ht⟩ := hx.comps
    match hs : x.comps.shape, g2 with
    | [m], _ => rcases ht with ⟨-, ht⟩ | ⟨_, -, ht⟩ <;> rw [tabulates_row ht hs]

theorem Told.role {I : Importer K} {w : World K} {p : Val K × Val K} {z : Import K} (h : Told I w p z) :
    ∃ r s, (r, z.kind, s) ∈ roleTable ∧ Under p.2 "Role" (.str r.toList) := by
  obtain ⟨w0, x, hx, e1, -⟩ := h.read
  obtain ⟨r, g1, g2⟩ := hx.role
  exact ⟨r, _, e1 ▸ g1, g2⟩

/-- The entries that are read. -/
theorem importEach_reads {I : Importer K} {w : World K} : ∀ (d : List (Val K × Val K)) (l : List (Import K)), importEach I w d = .ok l →
    List.Forall₂ (fun p x => ReadOff I w p.1 p.2 x) (objectEntries d) l
  | [], l, h => by cases h; exact .nil
  | (key, entry) :: d, l, h => by
    unfold importEach at h
    unfold objectEntries
    split_ifs at h with hs
    · have := same_text.1 hs
      rw [List.filter_cons_of_neg (by simp [this])]
      exact importEach_reads d l h
    · obtain ⟨y, hy, hA⟩ := py_ok_of_bind h
      obtain ⟨l', hl, hB⟩ := py_ok_of_bind hA
      cases hB
      rw [List.filter_cons_of_pos (by simpa using fun he => hs (same_text.2 he))]
      exact .cons (importOne_reads hy) (importEach_reads d l' hl)

omit [DecidableEq K] [CommRing K] in
theorem mapEach_ok {α β : Type} {f : α → PyM K β} (hf : ∀ x w w' y, f x w = (.ok y, w') → w' = w) :
    ∀ (l : List α) (l' : List β) (w w' : World K), mapEach f l w = (.ok l', w') →
      w' = w ∧ List.Forall₂ (fun x y => f x w = (.ok y, w)) l l'
  | [], l', w, w', h => by cases h; exact ⟨rfl, .nil⟩
  | x :: l, l', w, w', h => by
    unfold mapEach at h
    obtain ⟨y, w1, h1, h2⟩ := bind_ok h
    obtain ⟨ys, w2, h3, h4⟩ := bind_ok h2
    cases h4
    obtain rfl := hf _ _ _ _ h1
    obtain ⟨rfl, h5⟩ := mapEach_ok hf l ys _ _ h3
    exact ⟨rfl, .cons h1 h5⟩

omit [DecidableEq K] [CommRing K] in
theorem forEach_pure {α : Type} {f : α → PyM K Unit} (hf : ∀ x w w', f x w = (.ok (), w') → w' = w) :
    ∀ (l : List α) (w w' : World K), forEach f l w = (.ok (), w') → w' = w ∧ ∀ x ∈ l, f x w = (.ok (), w)
  | [], w, w', h => by cases h; exact ⟨rfl, by simp⟩
  | x :: l, w, w', h => by
    unfold forEach at h
    obtain ⟨u, w1, h1, h2⟩ := bind_ok h
    obtain rfl := hf _ _ _ h1
    obtain ⟨rfl, h3⟩ := forEach_pure hf l _ _ h2
    exact ⟨rfl, fun y hy => (List.mem_cons.1 hy).elim (fun e => e ▸ h1) (h3 y)⟩

theorem resolve_ok {r r' : Option Ref} {w w' : World K} (h : resolve r w = (.ok r', w')) :
    w' = w ∧ (r' = none ↔ r = none) ∧
    ∀ i, r' = some (.obj i) → r = some (.obj i) ∨ ∃ s, r = some (.name (some s)) ∧ FirstCalled w s i := by
  unfold resolve at h
  split at h
  · rename_i s
    obtain ⟨c, w1, h1, h2⟩ := bind_ok h
    obtain rfl : w = w1 := congrArg Prod.snd h1
    have hc : (namedInstances w s).head? = c := by
      have := congrArg Prod.fst h1
      injection this
    cases c with
    | none => cases h2; exact ⟨rfl, by simp, fun i hi => by cases hi⟩
    | some c =>
      cases h2
      refine ⟨rfl, by simp, fun i hi => Or.inr ?_⟩
      cases hi
      obtain ⟨s', e1, e2⟩ := named_first hc
      exact ⟨s', by rw [e1], e2⟩
  · cases h
    exact ⟨rfl, Iff.rfl, fun i hi => Or.inl hi⟩

theorem forall2_filter {α β : Type} {R : α → β → Prop} {p : α → Bool} {q : β → Bool} (h : ∀ x y, R x y → p x = q y) :
    ∀ {l : List α} {m : List β}, List.Forall₂ R l m →
      List.Forall₂ (fun x y => R x y ∧ p x = true) (l.filter p) (m.filter q)
  | _, _, .nil => .nil
  | _, _, .cons (a := a) (b := b) hr hl => by
    have := forall2_filter h hl
    rw [List.filter_cons, List.filter_cons, ← h a b hr]
    split_ifs with hp
    · exact .cons ⟨hr, hp⟩ this
    · exact this

theorem forall2_step {α β γ : Type} {R : α → β → Prop} {S : β → γ → Prop} {T : α → γ → Prop} (h : ∀ x y z, R x y → S y z → T x z) :
    ∀ {l : List α} {m : List β} {n : List γ}, List.Forall₂ R l m → List.Forall₂ S m n → List.Forall₂ T l n
  | _, _, _, .nil, .nil => .nil
  | _, _, _, .cons h1 h2, .cons h3 h4 => .cons (h _ _ _ h1 h3) (forall2_step h h2 h4)

omit [DecidableEq K] [CommRing K] in
/-- Three classes. -/
theorem forall2_classes {α : Type} {R : α → Import K → Prop} : ∀ {es : List α} {l : List (Import K)}, List.Forall₂ R es l →
    ∃ a b c, a.Sublist es ∧ b.Sublist es ∧ c.Sublist es ∧ (a ++ b ++ c).Perm es ∧
      List.Forall₂ R a (l.filter fun x => x.kind == .coordinates) ∧ List.Forall₂ R b (l.filter fun x => x.kind == .metric) ∧
      List.Forall₂ R c (l.filter Import.plain)
  | _, _, .nil => ⟨[], [], [], .slnil, .slnil, .slnil, .nil, .nil, .nil, .nil⟩
  | _, _, .cons (a := e) (b := x) (l₁ := es) hr hl => by
    obtain ⟨a, b, c, h1, h2, h3, h4, h5, h6, h7⟩ := forall2_classes hl
    by_cases hk : x.kind = .coordinates
    · refine ⟨e :: a, b, c, h1.cons_cons _, h2.cons _, h3.cons _, h4.cons e, ?_, ?_, ?_⟩
      · rw [List.filter_cons_of_pos (by simp [hk])]; exact .cons hr h5
      · rw [List.filter_cons_of_neg (by simp [hk])]; exact h6
      · rw [List.filter_cons_of_neg (by simp [hk, Import.plain])]; exact h7
    · by_cases hk' : x.kind = .metric
      · refine ⟨a, e :: b, c, h1.cons _, h2.cons_cons _, h3.cons _, ?_, ?_, ?_, ?_⟩
        · rw [List.append_assoc, List.cons_append]
          exact List.perm_middle.trans ((by simpa using h4 : (a ++ (b ++ c)).Perm es).cons e)
        · rw [List.filter_cons_of_neg (by simp [hk'])]; exact h5
        · rw [List.filter_cons_of_pos (by simp [hk'])]; exact .cons hr h6
        · rw [List.filter_cons_of_neg (by simp [hk', Import.plain])]; exact h7
      · refine ⟨a, b, e :: c, h1.cons _, h2.cons _, h3.cons_cons _, List.perm_middle.trans (h4.cons e), ?_, ?_, ?_⟩
        · rw [List.filter_cons_of_neg (by simp [hk])]; exact h5
        · rw [List.filter_cons_of_neg (by simp [hk'])]; exact h6
        · rw [List.filter_cons_of_pos (by simp [hk, hk', Import.plain])]; exact .cons hr h7

theorem mem_forall2 {α β : Type} {R : α → β → Prop} {l : List α} {m : List β} (h : List.Forall₂ R l m) {x : α} (hx : x ∈ l) :
    ∃ y ∈ m, R x y := by
  induction h with
  | nil => cases hx
  | cons h1 _ ih =>
    rcases List.mem_cons.1 hx with rfl | hx
    · exact ⟨_, by simp, h1⟩
    · obtain ⟨y, g1, g2⟩ := ih hx
      exact ⟨y, List.mem_cons_of_mem _ g1, g2⟩

theorem forall2_ids {I : Importer K} {w : World K} {ids : List Id'} {l : List (Import K)} (h : List.Forall₂ (Present I w) ids l) :
    ∀ j ∈ ids, ∃ o, w.objs[j]? = some o := fun j hj => by
  obtain ⟨y, -, o, ho, -⟩ := mem_forall2 h hj
  exact ⟨o, ho⟩

/-- Arguments that are not used. -/
theorem Present.change {I : Importer K} {w : World K} {i : Id'} {x : Import K} {c m : Option Ref} (h : Present I w i x)
    (hc : x.kind = .coordinates ∨ c = x.coords) (hm : x.kind = .coordinates ∨ x.kind = .metric ∨ m = x.metric) :
    Present I w i { x with coords := c, metric := m } := by
  obtain ⟨o, ho, hM⟩ := h
  have hk := hM.kind
  refine ⟨o, ho, ⟨hM.alive, hk, hM.name, hM.symbol, hM.indices, hM.signs, fun h1 => ?_, fun h1 h2 => ?_, hM.itself, hM.comps, hM.syms⟩⟩
  · rcases hc with hc | rfl
    · exact absurd (hk.trans hc) h1
    · exact hM.coords h1
  · rcases hm with hm | hm | rfl
    · exact absurd (hk.trans hm) h1
    · exact absurd (hk.trans hm) h2
    · exact hM.metric h1 h2

variable [Algebra ℚ K]

/-- **C129**: whenever `import_all_from_string` returns, whatever the text and whatever was done before, the registry
consists of one object for each entry of the text, the coordinates first, then the metrics, then the others, each in
the order of the text, and each object is the one that its entry describes: class, name, symbol, indices and components
are those of the entry, and its coordinates and its metric are the first registered objects with the names that the
entry gives. -/
theorem C129_imported_all (E : Engine K) (letters : List String) (ks : List (Call K)) (I : Importer K) (n : Nat) (s : List Char)
    (w' : World K) (h : importAllFromString E I n s (history E letters ks fresh) = some (.ok (), w')) :
    ∃ d es, parseStr I.toReader n s = some (.ok (.dict d)) ∧ CoordinatesFirst d es ∧
      List.Forall₂ (fun i p => ∃ o, w'.objs[i]? = some o ∧ Described I.nameOf w' (FirstCalled w') p.1 p.2 i o) w'.instances es := by
  obtain ⟨w0, hc, hi0⟩ := clear_returns (sound_history (E := E) letters ks fresh sound_fresh)
  unfold importAllFromString at h
  rw [hc] at h
  dsimp only at h
  split at h
  · cases h
  · injection h with h; injection h with h _; cases h
  · rename_i v hv
    injection h with h
    unfold importAllFromVal at h
    rw [PyM.bind_apply] at h
    simp only [PyM.world] at h
    obtain ⟨l0, w0', h1, hA⟩ := bind_ok h
    obtain rfl : w0 = w0' := congrArg Prod.snd h1
    have hl : stringToTensors I w0 v = .ok l0 := congrArg Prod.fst h1
    cases v with
    | dict d =>
      have hr := importEach_reads d l0 hl
      obtain ⟨u1, w1, h2, hB⟩ := bind_ok hA
      obtain ⟨l1, w1', h3, hC⟩ := bind_ok hB
      obtain ⟨u2, w2, h4, hD⟩ := bind_ok hC
      obtain ⟨u3, w2', h5, hE⟩ := bind_ok hD
      obtain ⟨u4, w3, h6, hF⟩ := bind_ok hE
      obtain ⟨l2, w3', h7, h8⟩ := bind_ok hF
      clear h hA hB hC hD hE hF
      obtain ⟨x1, ids1, i1, p1⟩ := forEach_made (I := I) (P := fun x => x.kind = .coordinates)
        (fun x w w' i hk hh => importCoordinates_made hk hh) _ _ _ (fun x hx => by simpa using (List.mem_filter.1 hx).2) h2
      obtain ⟨rfl, r1⟩ := mapEach_ok (fun x w w' y hh => by
        obtain ⟨c, w1, g1, g2⟩ := bind_ok hh
        cases g2
        exact (resolve_ok g1).1) _ _ _ _ h3
      obtain ⟨x2, i2⟩ := forEach_ext (fun x w w' hh => importTrans_ext hh) _ _ _ h4
      obtain ⟨rfl, n1⟩ := forEach_pure (fun x w w' hh => by
        rcases hc' : x.coords with _ | ⟨c⟩ | ⟨r⟩ <;> rw [hc'] at hh <;> cases hh <;> rfl) _ _ _ h5
      have n1' : ∀ y ∈ l1, ∀ r, y.coords ≠ some (.name r) := fun y hy r hn => by
        have := n1 y hy
        rw [hn] at this
        cases this
      have a1 : List.Forall₂ (fun x y : Import K => (y = { x with coords := y.coords }) ∧ (y.coords = none ↔ x.coords = none) ∧
          ∀ i, y.coords = some (.obj i) → x.coords = some (.obj i) ∨ ∃ s, x.coords = some (.name (some s)) ∧ FirstCalled w1' s i)
          l0 l1 := r1.imp fun x y hh => by
        obtain ⟨c, w1, g1, g2⟩ := bind_ok hh
        cases g2
        obtain ⟨-, g3, g4⟩ := resolve_ok g1
        exact ⟨rfl, g3, g4⟩
      have q1 : List.Forall₂ (fun (p : Val K × Val K) (y : Import K) => ∃ x, ReadOff I w0 p.1 p.2 x ∧ (y = { x with coords := y.coords }) ∧
          (y.coords = none ↔ x.coords = none) ∧
          ∀ i, y.coords = some (.obj i) → x.coords = some (.obj i) ∨ ∃ s, x.coords = some (.name (some s)) ∧ FirstCalled w1' s i)
          (objectEntries d) l1 := forall2_step (fun p x y g1 g2 => ⟨x, g1, g2⟩) hr a1
      have c1 : ∀ y ∈ l1, y.kind ≠ .coordinates → ∃ c, y.coords = some (.obj c) := fun y hy hk => by
        obtain ⟨p, -, x, g1, g2, g3, -⟩ := mem_forall2 q1.flip hy
        cases hyc : y.coords with
        | none =>
          have e := g1.none.1 (g3.1 hyc)
          rw [g2] at hk
          exact absurd e hk
        | some r =>
          cases r with
          | obj c => exact ⟨c, rfl⟩
          | name r => exact absurd hyc (n1' y hy r)
      obtain ⟨x3, ids2, i3, p2⟩ := forEach_made (I := I) (P := fun x => x.kind ≠ .coordinates ∧ ∃ c, x.coords = some (.obj c))
        (fun x w w' i hk hh => importTensor_made hk.1 hk.2.choose_spec hh) _ _ _ (fun x hx => by
          obtain ⟨g1, g2⟩ := List.mem_filter.1 hx
          have g3 : x.kind = .metric := by simpa using g2
          have g4 : x.kind ≠ .coordinates := by rw [g3]; decide
          exact ⟨g4, c1 x g1 g4⟩) h6
      obtain ⟨rfl, r2⟩ := mapEach_ok (fun x w w' y hh => by
        obtain ⟨c, w1, g1, g2⟩ := bind_ok hh
        obtain ⟨e, -⟩ := resolve_ok g1
        split at g2
        · cases g2
        · cases g2
          exact e) _ _ _ _ h7
      have a2 : List.Forall₂ (fun y z : Import K => (z = { y with metric := z.metric }) ∧
          ∀ i, z.metric = some (.obj i) → y.metric = some (.obj i) ∨ ∃ s, y.metric = some (.name (some s)) ∧ FirstCalled w3' s i)
          l1 l2 := r2.imp fun x y hh => by
        obtain ⟨c, w1, g1, g2⟩ := bind_ok hh
        obtain ⟨-, -, g4⟩ := resolve_ok g1
        split at g2
        · cases g2
        · cases g2
          exact ⟨rfl, g4⟩
      obtain ⟨x4, ids3, i4, p3⟩ := forEach_made (I := I) (P := fun x => x.kind ≠ .coordinates ∧ ∃ c, x.coords = some (.obj c))
        (fun x w w' i hk hh => importTensor_made hk.1 hk.2.choose_spec hh) _ _ _ (fun z hz => by
          obtain ⟨g1, g2⟩ := List.mem_filter.1 hz
          obtain ⟨y, hy, e, -⟩ := mem_forall2 a2.flip g1
          have g3 : y.kind ≠ .coordinates := by
            intro g3
            rw [e] at g2
            simp [Import.plain, g3] at g2
          rw [e]
          exact ⟨g3, c1 y hy g3⟩) h8
      have f1 : ∀ j ∈ w1'.instances, ∃ o, w1'.objs[j]? = some o := by
        rw [i1, hi0]
        exact forall2_ids p1
      have p1' := p1.imp fun i x g => g.ext (x2.trans x3)
      have f3 : ∀ j ∈ w3'.instances, ∃ o, w3'.objs[j]? = some o := by
        rw [i3, i2, i1, hi0]
        intro j hj
        rcases List.mem_append.1 hj with hj | hj
        · exact forall2_ids p1' j hj
        · exact forall2_ids p2 j hj
      have q2 : List.Forall₂ (Told I w') (objectEntries d) l2 := forall2_step (fun p y z g1 g2 => by
        obtain ⟨x, hx, e1, e2, e3⟩ := g1
        obtain ⟨e4, e5⟩ := g2
        have k1 : z.kind = x.kind := by rw [e4, e1]
        have m1 : y.metric = x.metric := by rw [e1]
        have k2 : z.coords = y.coords := by rw [e4]
        refine ⟨⟨w0, x, hx, k1, by rw [e4, e1], by rw [e4, e1], by rw [e4, e1], by rw [e4, e1]⟩, fun hk c hc => ?_, fun hk hk' m hm => ?_⟩
        · obtain ⟨v, t1, t2⟩ := hx.coords (k1 ▸ hk)
          rcases e3 c (k2 ▸ hc) with t3 | ⟨s, t3, t4⟩
          · rw [t2] at t3; cases t3
          · rw [t2] at t3
            injection t3 with t3
            injection t3 with t3
            exact ⟨s, by rw [← string?_eq t3]; exact t1, FirstCalled.ext f1 (x2.trans (x3.trans x4)) t4⟩
        · obtain ⟨v, t1, t2⟩ := hx.named (k1 ▸ hk) (k1 ▸ hk') hi0
          rcases e5 m hm with t3 | ⟨s, t3, t4⟩
          · rw [m1, t2] at t3; cases t3
          · rw [m1, t2] at t3
            injection t3 with t3
            injection t3 with t3
            exact ⟨s, by rw [← string?_eq t3]; exact t1, FirstCalled.ext f3 x4 t4⟩) q1 a2
      obtain ⟨a, b, c, s1, s2, s3, hp, t1, t2, t3⟩ := forall2_classes q2
      have u1 : List.Forall₂ (Present I w') ids1 (l2.filter fun x => x.kind == .coordinates) := by
        have v1 := forall2_filter (p := fun x : Import K => x.kind == .coordinates) (q := fun x : Import K => x.kind == .coordinates)
          (fun x y g => by rw [g.1]) a1
        have v2 := forall2_filter (p := fun x : Import K => x.kind == .coordinates) (q := fun x : Import K => x.kind == .coordinates)
          (fun x y g => by rw [g.1]) a2
        refine forall2_step (fun i y z (g : Present I w' i y ∧ y.kind = .coordinates) g' => ?_) (forall2_step (fun i x y g g' => ?_) p1' v1) v2
        · rw [g'.1.1]
          exact g.1.change (Or.inl g.2) (Or.inl g.2)
        · have hk : x.kind = .coordinates := by simpa using g'.2
          rw [g'.1.1]
          exact ⟨(g.ext x4).change (Or.inl hk) (Or.inl hk), hk⟩
      have u2 : List.Forall₂ (Present I w') ids2 (l2.filter fun x => x.kind == .metric) := by
        have v2 := forall2_filter (p := fun x : Import K => x.kind == .metric) (q := fun x : Import K => x.kind == .metric)
          (fun x y g => by rw [g.1]) a2
        refine forall2_step (fun i y z g g' => ?_) p2 v2
        have hk : y.kind = .metric := by simpa using g'.2
        rw [g'.1.1]
        exact (g.ext x4).change (Or.inr rfl) (Or.inr (Or.inl hk))
      have sub : (objectEntries d).Sublist d := List.filter_sublist
      refine ⟨d, a ++ b ++ c, hv, ⟨a, b, c, rfl, hp, s1.trans sub, s2.trans sub, s3.trans sub, fun p hp => ?_, fun p hp => ?_,
        fun p hp => ?_⟩, ?_⟩
      · obtain ⟨z, g1, g2⟩ := mem_forall2 t1 hp
        have g3 : z.kind = .coordinates := by simpa using (List.mem_filter.1 g1).2
        obtain ⟨r, s, g4, g5⟩ := g2.role
        rw [g3] at g4
        simp [roleTable] at g4
        rw [g4.1] at g5
        exact g5
      · obtain ⟨z, g1, g2⟩ := mem_forall2 t2 hp
        have g3 : z.kind = .metric := by simpa using (List.mem_filter.1 g1).2
        obtain ⟨r, s, g4, g5⟩ := g2.role
        rw [g3] at g4
        simp [roleTable] at g4
        rw [g4.1] at g5
        exact g5
      · obtain ⟨z, g1, g2⟩ := mem_forall2 t3 hp
        have g3 := (List.mem_filter.1 g1).2
        obtain ⟨r, s, g4, g5⟩ := g2.role
        refine ⟨_, g5, fun e => ?_, fun e => ?_⟩
        · rw [String.toList_inj.1 e] at g4
          simp [roleTable] at g4
          simp [Import.plain, g4.1] at g3
        · rw [String.toList_inj.1 e] at g4
          simp [roleTable] at g4
          simp [Import.plain, g4.1] at g3
      · rw [i4, i3, i2, i1, hi0]
        have step : ∀ {ids es l}, List.Forall₂ (Present I w') ids l → List.Forall₂ (Told I w') es l →
            List.Forall₂ (fun i (p : Val K × Val K) => ∃ o, w'.objs[i]? = some o ∧ Described I.nameOf w' (FirstCalled w') p.1 p.2 i o) ids es :=
          fun {ids es l} g1 g2 => forall2_step (R := Present I w') (S := fun z p => Told I w' p z) (fun i z p g3 g4 => Told.described g4 g3)
            g1 g2.flip
        exact List.rel_append (List.rel_append (step u1 t1) (step u2 t2)) (step p3 t3)
    | _ => cases hl

/-! ### Example -/

/-- A vector, its metric and their coordinates, in the order in which they cannot be made. -/
def Spec.scrambledText : List Char :=
  ("<|\"W\"-><|\"Components\"-><|{{1},\"Plane\"}->{x,2}|>,\"DefaultCoords\"->\"Plane\",\"DefaultIndices\"->{1}," ++
    "\"Role\"->\"Calculated\",\"Metric\"->\"Flat\"|>," ++
    "\"Flat\"-><|\"Components\"-><|{{-1,-1},\"Plane\"}->{{1,0},{0,3}}|>,\"DefaultCoords\"->\"Plane\"," ++
    "\"DefaultIndices\"->{-1,-1},\"Role\"->\"Metric\"|>," ++
    "\"Plane\"-><|\"Components\"-><|{{1},\"Plane\"}->{x,y}|>,\"DefaultCoords\"->\"Plane\",\"DefaultIndices\"->{1}," ++
    "\"Role\"->\"Coordinates\"|>|>").toList

/-- The hypothesis of C129 is met, in a session with other objects: three objects are made and the old ones are gone. -/
example : (importAllFromString codeEngine codeImporter 3000 scrambledText codeWorld).map (fun r =>
      (r.1, r.2.instances.map fun i => (r.2.objs[i]?).map fun o => (o.name, o.symbol))) =
      some (.ok (), [some ("Plane", "x"), some ("Flat", "g"), some ("W", "T")]) := by
  decide +kernel

/-- And so the objects are those of the entries. -/
example : ∃ w' d es, w'.instances.length = 3 ∧ parseStr codeImporter.toReader 3000 scrambledText = some (.ok (.dict d)) ∧
    CoordinatesFirst d es ∧
    List.Forall₂ (fun i p => ∃ o, w'.objs[i]? = some o ∧ Described codeImporter.nameOf w' (FirstCalled w') p.1 p.2 i o) w'.instances es := by
  have h : (importAllFromString codeEngine codeImporter 3000 scrambledText codeWorld).any (fun r =>
      r.1 == .ok () && r.2.instances.length == 3) = true := by
    decide +kernel
  obtain ⟨⟨r, w'⟩, h1, h2⟩ := some_of_any h
  simp only [Bool.and_eq_true, beq_iff_eq] at h2
  obtain ⟨rfl, h3⟩ := h2
  obtain ⟨d, es, g⟩ := C129_imported_all _ _ _ _ _ _ _ h1
  exact ⟨w', d, es, h3, g⟩

end PyOGRe
