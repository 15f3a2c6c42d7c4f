import Verif.Model.RuleLists
import Verif.Props.Sharing

/-!
# Coordinate systems and the lists of the caller: C118
-/

namespace PyOGRe
open Spec
variable {K : Type} [CommRing K] [DecidableEq K] [Algebra ℚ K] {E : Engine K} {letters : List Sym}

/-- A session that has just been started. -/
def Spec.opened : Handed K := ⟨fresh, [], []⟩

/-- The new content of the `k`-th list. -/
def Spec.Act.content (k : Nat) : Act K → Option (RuleList K)
  | .change j l => if j = k then some l else none
  | _ => none

/-- The action asks to change the rules of the coordinate system `c` for `coords`. -/
def Spec.Act.asks (c coords : Id') : Act K → Bool
  | .add c' coords' _ => c' == c && coords' == coords
  | .call (.transformation c' coords' _) => c' == c && coords' == coords
  | _ => false

/-- The rules of `c` for `coords`. -/
def Spec.rulesFor (s : Handed K) (c coords : Id') : Option (RuleList K) :=
  (s.world.objs[c]?).bind fun o => o.trans.get? coords

theorem get?_mapped {d : Dict Id' (RuleList K)} (f : Id' × RuleList K → Id' × RuleList K) (hf : ∀ p, (f p).1 = p.1)
    (c : Id') : Dict.get? (d.map f) c = (d.get? c).map fun l => (f (c, l)).2 := by
  induction d with
  | nil => rfl
  | cons p d ih =>
    rw [List.map_cons, Dict.get?_cons, Dict.get?_cons, hf, ih]
    split
    · rename_i h
      subst h
      rfl
    · rfl

theorem rulesFor_put (s : Handed K) (j : Nat) (l : RuleList K) (c coords : Id') :
    rulesFor (s.put j l) c coords =
      (rulesFor s c coords).map fun r => if s.held.get? (c, coords) = some j then l else r := by
  unfold rulesFor Handed.put
  rw [List.getElem?_mapIdx]
  cases s.world.objs[c]? with
  | none => rfl
  | some o =>
    show Dict.get? (o.trans.map _) coords = _
    rw [get?_mapped (fun p => if s.held.get? (c, p.1) = some j then (p.1, l) else p) (fun p => by split <;> rfl)]
    show _ = (o.trans.get? coords).map _
    congr 1
    funext r
    dsimp only
    split <;> rfl

/-- Calls other than `add_coord_transformation` keep the rules. -/
theorem rulesFor_call {s : Handed K} {c coords : Id'} {l : RuleList K} (k : Call K) (h : rulesFor s c coords = some l)
    (hk : k.newRules c = false) : rulesFor { s with world := k.run E letters s.world } c coords = some l := by
  unfold rulesFor at h ⊢
  cases ho : s.world.objs[c]? with
  | none => rw [ho] at h; cases h
  | some o =>
    rw [ho] at h
    obtain ⟨o', e1, e2⟩ := call_effect (E := E) letters k ho
    dsimp only
    rw [e1]
    rcases e2.trans with e | e
    · show o'.trans.get? coords = _
      rw [e]
      exact h
    · rw [hk] at e
      cases e

theorem rulesFor_added {s : Handed K} {c coords c' coords' : Id'} {rules : Option (RuleList K)} {held : Dict (Id' × Id') Nat}
    (hne : ¬ (c' = c ∧ coords' = coords)) :
    rulesFor { s with world := (addCoordTransformation c' coords' rules s.world).2, held := held } c coords =
      rulesFor s c coords := by
  rcases addCoordTransformation_eq c' coords' rules s.world with ⟨e, h⟩ | ⟨_, h⟩
  · rw [h]
    rfl
  · rw [h]
    unfold rulesFor
    show ((s.world.objs.modify c' _)[c]?).bind _ = _
    rw [List.getElem?_modify]
    by_cases hc : c' = c
    · subst hc
      have hd : coords' ≠ coords := fun e => hne ⟨rfl, e⟩
      cases s.world.objs[c']? with
      | none => rfl
      | some o =>
        simp only [if_true, Option.map_eq_map, Option.map_some, Option.bind_some]
        cases rules with
        | none => 
          show Dict.get? (Dict.del _ _) _ = _
          rw [Dict.get?_del, if_neg hd]
        | some r =>
          show Dict.get? (Dict.set _ _ _) _ = _
          rw [Dict.get?_set, if_neg hd]
    · simp [hc]

/-- One action. -/
theorem holds_step {s : Handed K} {c coords : Id'} {k : Nat} {l : RuleList K} (a : Act K)
    (hh : s.held.get? (c, coords) = some k) (hl : s.lists[k]? = some l) (hr : rulesFor s c coords = some l)
    (ha : Act.asks c coords a = false) :
    (a.run E letters s).held.get? (c, coords) = some k ∧
    (a.run E letters s).lists[k]? = some ((Act.content k a).getD l) ∧
    rulesFor (a.run E letters s) c coords = some ((Act.content k a).getD l) := by
  have hlt : k < s.lists.length := (List.getElem?_eq_some_iff.1 hl).1
  have other : ∀ (k' : Call K), k'.newRules c = false → Act.content k (.call k') = none →
      rulesFor { s with world := k'.run E letters s.world } c coords = some ((Act.content k (.call k')).getD l) := by
    intro k' h1 h2
    rw [h2]
    exact rulesFor_call k' hr h1
  cases a with
  | list r => exact ⟨hh, (List.getElem?_append_left hlt).trans hl, hr⟩
  | change j r =>
    have e := rulesFor_put s j r c coords
    rw [hh, hr, Option.map_some] at e
    refine ⟨hh, ?_, ?_⟩
    · show (s.lists.set j r)[k]? = _
      rw [List.getElem?_set]
      show _ = some ((if j = k then some r else none).getD l)
      by_cases hj : j = k
      · subst hj
        simp [hlt]
      · simp [hj, hl]
    · refine e.trans ?_
      show _ = some ((if j = k then some r else none).getD l)
      by_cases hj : j = k
      · subst hj
        simp
      · simp [hj, Ne.symm hj]
  | add c' coords' j =>
    have hne : ¬ (c' = c ∧ coords' = coords) := fun e => by
      obtain ⟨rfl, rfl⟩ := e
      simp [Act.asks] at ha
    have hr' := fun held => rulesFor_added (s := s) (rules := some (s.lists.getD j [])) (held := held) hne
    show (s.add c' coords' j).held.get? _ = _ ∧ (s.add c' coords' j).lists[k]? = _ ∧ rulesFor (s.add c' coords' j) c coords = _
    unfold Handed.add
    rcases h : addCoordTransformation c' coords' (some (s.lists.getD j [])) s.world with ⟨r, w⟩
    rw [h] at hr'
    cases r with
    | error e => exact ⟨hh, hl, (hr' s.held).trans hr⟩
    | ok u =>
      refine ⟨?_, hl, (hr' _).trans hr⟩
      show (s.held.set (c', coords') j).get? (c, coords) = _
      rw [Dict.get?_set, if_neg (fun e => hne ⟨congrArg Prod.fst e, congrArg Prod.snd e⟩)]
      exact hh
  | call k' =>
    cases k'
    case transformation c' coords' rules =>
      have hne : ¬ (c' = c ∧ coords' = coords) := fun e => by
        obtain ⟨rfl, rfl⟩ := e
        simp [Act.asks] at ha
      have hr' := fun held => rulesFor_added (s := s) (rules := rules) (held := held) hne
      show (s.forget c' coords' rules).held.get? _ = _ ∧ (s.forget c' coords' rules).lists[k]? = _ ∧
        rulesFor (s.forget c' coords' rules) c coords = _
      unfold Handed.forget
      rcases h : addCoordTransformation c' coords' rules s.world with ⟨r, w⟩
      rw [h] at hr'
      cases r with
      | error e => exact ⟨hh, hl, (hr' s.held).trans hr⟩
      | ok u =>
        refine ⟨?_, hl, (hr' _).trans hr⟩
        show (s.held.del (c', coords')).get? (c, coords) = _
        rw [Dict.get?_del, if_neg (fun e => hne ⟨congrArg Prod.fst e, congrArg Prod.snd e⟩)]
        exact hh
    all_goals exact ⟨hh, hl, other _ rfl rfl⟩

theorem holds_acts {c coords : Id'} {k : Nat} : ∀ (as : List (Act K)) {s : Handed K} {l : RuleList K},
    s.held.get? (c, coords) = some k → s.lists[k]? = some l → rulesFor s c coords = some l →
    (∀ a ∈ as, Act.asks c coords a = false) →
    rulesFor (acts E letters as s) c coords = some ((as.filterMap (Act.content k)).getLast?.getD l)
  | [], _, _, _, _, hr, _ => hr
  | a :: as, s, l, hh, hl, hr, ha => by
    obtain ⟨h1, h2, h3⟩ := holds_step (E := E) (letters := letters) a hh hl hr (ha a List.mem_cons_self)
    refine (holds_acts as h1 h2 h3 fun b hb => ha b (List.mem_cons_of_mem _ hb)).trans ?_
    rw [List.filterMap_cons]
    cases hc : Act.content k a with
    | none => rfl
    | some r =>
      rw [List.getLast?_cons]
      cases (as.filterMap (Act.content k)).getLast? <;> rfl

/-- After `c.add_coord_transformation(coords, rules)` the list is stored. -/
theorem added_list {s : Handed K} {c coords : Id'} {k : Nat} {l : RuleList K} (hl : s.lists[k]? = some l)
    (hok : (addCoordTransformation c coords (some l) s.world).1 = .ok ()) :
    (s.add c coords k).held.get? (c, coords) = some k ∧ (s.add c coords k).lists[k]? = some l ∧
    rulesFor (s.add c coords k) c coords = some l := by
  have hg : s.lists.getD k [] = l := by rw [List.getD_eq_getElem?_getD, hl]; rfl
  unfold Handed.add
  rw [hg]
  rcases addCoordTransformation_eq c coords (some l) s.world with ⟨e, h⟩ | ⟨⟨o, ho⟩, h⟩
  · rw [h] at hok
    cases hok
  · rw [h]
    refine ⟨Dict.get?_set_self _ _ _, hl, ?_⟩
    show ((s.world.objs.modify c _)[c]?).bind _ = _
    rw [List.getElem?_modify, ho]
    simp only [if_true, Option.map_eq_map, Option.map_some, Option.bind_some]
    exact Dict.get?_set_self _ _ _

/-- **C118**: what the code guarantees in general.  After `c.add_coord_transformation(coords, rules)` has returned, and until it is
called again for these two, the rules are the present content of the list `rules` of the caller, whatever else is done. -/
theorem C118_current {s : Handed K} {c coords : Id'} {k : Nat} {l : RuleList K} (hl : s.lists[k]? = some l)
    (hok : (addCoordTransformation c coords (some l) s.world).1 = .ok ()) (as : List (Act K))
    (ha : ∀ a ∈ as, Act.asks c coords a = false) :
    rulesFor (acts E letters (.add c coords k :: as) s) c coords =
      some ((as.filterMap (Act.content k)).getLast?.getD l) := by
  obtain ⟨h1, h2, h3⟩ := added_list hl hok
  exact holds_acts as h1 h2 h3 ha

/-- **C118** (partial: the caller does not change this list afterwards): the rules stay as they were given. -/
theorem C118_kept_partial {s : Handed K} {c coords : Id'} {k : Nat} {l : RuleList K} (hl : s.lists[k]? = some l)
    (hok : (addCoordTransformation c coords (some l) s.world).1 = .ok ()) (as : List (Act K))
    (ha : ∀ a ∈ as, Act.asks c coords a = false) (hk : ∀ a ∈ as, Act.content k a = none) :
    rulesFor (acts E letters (.add c coords k :: as) s) c coords = some l := by
  rw [C118_current hl hok as ha, List.filterMap_eq_nil_iff.2 hk]
  rfl

/-- The same actions in a session in which `add_coord_transformation` copies the list. -/
def Spec.listing (E : Engine K) (letters : List Sym) : List (Act K) → World K × List (RuleList K) → World K × List (RuleList K)
  | [], s => s
  | .list l :: as, (w, L) => listing E letters as (w, L ++ [l])
  | .change k l :: as, (w, L) => listing E letters as (w, L.set k l)
  | .add c coords k :: as, (w, L) =>
    listing E letters as ((Call.transformation c coords (some (L.getD k []))).run E letters w, L)
  | .call c :: as, (w, L) => listing E letters as (c.run E letters w, L)

/-- No list is changed after it was given to a coordinate system. -/
def Spec.Untouched (as : List (Act K)) : Prop :=
  as.Pairwise fun a b => ∀ c coords k, a = .add c coords k → Act.content k b = none

theorem put_unused {s : Handed K} {k : Nat} (l : RuleList K) (h : ∀ i, s.held.get? i ≠ some k) :
    (s.put k l).world = s.world := by
  unfold Handed.put
  have : s.world.objs.mapIdx (fun i o =>
      { o with trans := o.trans.map fun p => if s.held.get? (i, p.1) = some k then (p.1, l) else p }) = s.world.objs := by
    refine List.ext_getElem? fun i => ?_
    rw [List.getElem?_mapIdx]
    cases s.world.objs[i]? with
    | none => rfl
    | some o => simp [h]
  simp only [this]

theorem listing_acts : ∀ (as : List (Act K)) (s : Handed K), Untouched as →
    (∀ i k, s.held.get? i = some k → ∀ a ∈ as, Act.content k a = none) →
    (acts E letters as s).world = (listing E letters as (s.world, s.lists)).1
  | [], _, _, _ => rfl
  | a :: as, s, ho, hu => by
    have ho' := List.pairwise_cons.1 ho
    have hu' : ∀ i k, s.held.get? i = some k → ∀ a ∈ as, Act.content k a = none := fun i k hi a ha =>
      hu i k hi a (List.mem_cons_of_mem _ ha)
    cases a with
    | list l => exact listing_acts as _ ho'.2 hu'
    | change k l =>
      have hk : ∀ i, s.held.get? i ≠ some k := fun i hi => by
        have := hu i k hi _ List.mem_cons_self
        simp [Act.content] at this
      have := listing_acts as (s.put k l) ho'.2 hu'
      rw [put_unused l hk] at this
      exact this
    | add c coords k =>
      show (acts E letters as (s.add c coords k)).world = (listing E letters as
        ((addCoordTransformation c coords (some (s.lists.getD k [])) s.world).2, s.lists)).1
      unfold Handed.add
      rcases h : addCoordTransformation c coords (some (s.lists.getD k [])) s.world with ⟨r, w⟩
      cases r with
      | error e => exact listing_acts as { s with world := w } ho'.2 hu'
      | ok u =>
        refine listing_acts as { s with world := w, held := s.held.set (c, coords) k } ho'.2 fun i j hi b hb => ?_
        have hi : (s.held.set (c, coords) k).get? i = some j := hi
        rw [Dict.get?_set] at hi
        split at hi
        · cases hi
          exact ho'.1 b hb c coords k rfl
        · exact hu' i j hi b hb
    | call k' =>
      cases k'
      case transformation c coords rules =>
        show (acts E letters as (s.forget c coords rules)).world = (listing E letters as
          ((addCoordTransformation c coords rules s.world).2, s.lists)).1
        unfold Handed.forget
        rcases h : addCoordTransformation c coords rules s.world with ⟨r, w⟩
        cases r with
        | error e => exact listing_acts as { s with world := w } ho'.2 hu'
        | ok u =>
          refine listing_acts as { s with world := w, held := s.held.del (c, coords) } ho'.2 fun i j hi b hb => ?_
          have hi : (s.held.del (c, coords)).get? i = some j := hi
          rw [Dict.get?_del] at hi
          split at hi
          · cases hi
          · exact hu' i j hi b hb
      all_goals exact listing_acts as _ ho'.2 hu'

/-- **C118** (partial: no list is changed after it was given to a coordinate system): the session is the one in which
`add_coord_transformation` copies the list, after any actions. -/
theorem C118_copied_partial (as : List (Act K)) (ho : Untouched as) :
    (acts E letters as opened).world = (listing E letters as (fresh, [])).1 :=
  listing_acts as opened ho fun _ _ h => nomatch h

/-- Two coordinate systems. -/
def twoCharts : List (Act K) :=
  [.call (.coordinates (.val "one") (.val [1]) ["x"] .none (.val "x")),
    .call (.coordinates (.val "two") (.val [1]) ["y"] .none (.val "y")), .list [none]]

theorem twoCharts_ok : (addCoordTransformation 0 1 (some [none]) (acts E letters (twoCharts (K := K)) opened).world).1 = .ok () := rfl

/-- **C118** is false in general: the rules change with the list of the caller. -/
theorem C118_false : ¬ ∀ (ds as : List (Act K)) (c coords : Id') (k : Nat) (l : RuleList K),
    (acts E letters ds opened).lists[k]? = some l →
    (addCoordTransformation c coords (some l) (acts E letters ds opened).world).1 = .ok () →
    (∀ a ∈ as, Act.asks c coords a = false) →
    rulesFor (acts E letters (.add c coords k :: as) (acts E letters ds opened)) c coords = some l := by
  intro h
  have h1 := h twoCharts [.change 0 []] 0 1 0 [none] rfl twoCharts_ok (by simp [Act.asks])
  have h2 := C118_current (E := E) (letters := letters) (s := acts E letters (twoCharts (K := K)) opened) (c := 0) (coords := 1)
    (k := 0) rfl twoCharts_ok [.change 0 []] (by simp [Act.asks])
  rw [h2] at h1
  simp [Act.content] at h1

/-- A list for two coordinate systems, changed later. -/
example (x : K) : rulesFor (acts E letters [.add 0 1 0, .list [some ("x", x)], .add 1 0 1, .change 0 [some ("x", x)]]
    (acts E letters (twoCharts (K := K)) opened)) 0 1 = some [some ("x", x)] :=
  C118_current (s := acts E letters (twoCharts (K := K)) opened) rfl twoCharts_ok _ (by simp [Act.asks])

end PyOGRe
