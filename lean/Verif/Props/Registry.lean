import Verif.Lemmas.Counting
import Verif.Spec.Line
import Verif.Spec.Plane

/-!
# Properties of the registry

C46 (delete), C47 (references), C48 (delete_results), C49 (clear_instances), C50 (temporary tensors), C51 (user's
tensors), C31 and C70 (covariant derivatives of temporary tensors).  The specification is `Spec/Registry.lean`.
-/

namespace PyOGRe
open Spec
variable {K : Type} [CommRing K] [DecidableEq K] [Algebra ℚ K] {E : Engine K} {w : World K}

/-- **C46** After any sequence of calls, whether they returned or raised: deleting a registered object raises
`PermissionError` and changes nothing if another registered object refers to it; otherwise it returns, and this
object and no other disappears from the registry, and no other object changes. -/
theorem C46_delete (E : Engine K) (letters : List Sym) (calls : List (Call K)) (t : Id')
    (ht : t ∈ (history E letters calls fresh).instances) :
    (Used (history E letters calls fresh) t → deleteObj t (history E letters calls fresh) =
      (.error .permissionError, history E letters calls fresh)) ∧
    (¬ Used (history E letters calls fresh) t → ∃ w', deleteObj t (history E letters calls fresh) = (.ok (), w') ∧
      w'.instances = (history E letters calls fresh).instances.filter (· ≠ t) ∧ ¬ InUse w' t ∧
      ∀ i ≠ t, w'.objs[i]? = (history E letters calls fresh).objs[i]?) := by
  have hs := sound_history (E := E) letters calls fresh sound_fresh
  generalize history E letters calls fresh = w at *
  rcases deleteObj_cases hs ht with ⟨h1, h2⟩ | ⟨h1, h2⟩
  · exact ⟨fun _ => h2, fun h => absurd h1 h⟩
  · refine ⟨fun h => absurd h h1, fun _ => ⟨_, h2, ?_, ?_, fun i hi => removed_ne hi⟩⟩
    · show w.instances.erase t = _
      rw [hs.nodup.erase_eq_filter]
      refine List.filter_congr fun i _ => ?_
      rw [Bool.eq_iff_iff]
      simp
    · rintro ⟨o, h3, h4⟩
      obtain ⟨o', h5, -⟩ := hs.inUse t ht
      rw [show _ = some _ from modify_same h5 _] at h3
      cases h3
      cases h4

/-- C46: both cases occur. -/
example : Used (history lineEngine [] (lineCalls "V" "W") fresh) 1 ∧
    2 ∈ (history lineEngine [] (lineCalls "V" "W") fresh).instances ∧
    ¬ Used (history lineEngine [] (lineCalls "V" "W") fresh) 2 := by
  have hs := sound_history (E := lineEngine) [] (lineCalls "V" "W") fresh sound_fresh
  refine ⟨(any_uses hs).1 (by decide +kernel), by decide +kernel, fun h => ?_⟩
  exact absurd ((any_uses hs).2 h) (by decide +kernel)

/-- **C47** After any sequence of calls whose arguments were registered at the time of the call, whether the calls
returned or raised, the registered objects are not deleted and refer only to registered objects. -/
theorem C47_references_partial (E : Engine K) (letters : List Sym) (calls : List (Call K))
    (hp : Proper E letters calls fresh) : Sound (history E letters calls fresh) ∧
      NoDangling (history E letters calls fresh) ∧
      ∀ i ∈ (history E letters calls fresh).instances, ∀ o, (history E letters calls fresh).objs[i]? = some o →
        ∀ t, Refers o t → t ∈ (history E letters calls fresh).instances := by
  have h := tidy_history (E := E) letters calls fresh tidy_fresh hp
  exact ⟨h.sound, fun i hi o ho t ht => h.sound.inUse t (h.closed i hi o ho t ht), h.closed⟩

/-- C47: a session with a deletion and a failed deletion meets the hypotheses. -/
example : Proper lineEngine [] (lineCalls "V" "W" ++ [.delete 2, .delete 1, .calc (.tensor 3 ["a"]) "R" "r" []]) fresh := by
  refine ⟨by decide +kernel, by decide +kernel, by decide +kernel, by decide +kernel, by decide +kernel,
    by decide +kernel, by decide +kernel, trivial⟩

/-- **C47** is false without the proviso: a transformation to coordinates that have been deleted is accepted. -/
theorem C47_references_false (E : Engine K) (letters : List Sym) : ∃ calls : List (Call K),
    ¬ NoDangling (history E letters calls fresh) := by
  refine ⟨[.coordinates (.val "A") (.val [1]) ["x"] (.tuple [1]) (.val "x"),
    .coordinates (.val "B") (.val [1]) ["y"] (.tuple [1]) (.val "y"), .delete 1, .transformation 0 1 (some [])],
    fun h => ?_⟩
  obtain ⟨o, h1, h2⟩ := h 0 (show 0 ∈ [0] by simp) _ rfl 1 (Or.inl ⟨rfl, [], show _ ∈ [_] from List.mem_singleton.2 rfl⟩)
  cases h1
  cases h2

/-- **C47** The same for metrics: the constructor of tensors accepts a metric that has been deleted. -/
theorem C47_deleted_metric_false : ∃ calls : List (Call ℚ), EngineOK lineEngine ∧
    ¬ NoDangling (history lineEngine [] calls fresh) := by
  refine ⟨(lineCalls "V" "W").take 2 ++ [.delete 1, .tensor (.val "V") (.val ⟨[1], [1]⟩) 1 0 (.tuple [1]) (.val "v")],
    lineEngine_ok, fun h => ?_⟩
  obtain ⟨o, h1, h2⟩ := h 2 (by decide +kernel) _ rfl 1 (Or.inr ⟨by decide, Or.inl rfl⟩)
  cases h1
  cases h2

/-- No `n` neighbours in the list all have property `p`. -/
def Spec.NoRun {α : Type} (n : Nat) (p : α → Prop) (l : List α) : Prop :=
  ∀ a b c, l = a ++ b ++ c → (∀ x ∈ b, p x) → b.length < n

/-- An object called `Result` that only other objects called `Result` may refer to, in fact none. -/
def Spec.FreeResult (w : World K) (i : Id') : Prop := Named w "Result" i ∧ ¬ Used w i

omit [CommRing K] [DecidableEq K] [Algebra ℚ K] in
/-- **C48** If no 16 neighbours in the registry are unused objects called `Result`, and every used object of this
name is used by an object that is not itself deleted, then `delete_results` returns and deletes the unused
objects called `Result` and nothing else. -/
theorem C48_delete_results_partial (hs : Sound w) (hrun : NoRun 16 (FreeResult w) w.instances)
    (huse : ∀ i ∈ w.instances, Named w "Result" i → Used w i → ∃ j ∈ w.instances, j ≠ i ∧ ¬ FreeResult w j ∧
      ∃ o, w.objs[j]? = some o ∧ Refers o i) :
    ∃ w', deleteResults w = (.ok (), w') ∧ (∀ i, i ∈ w'.instances ↔ i ∈ w.instances ∧ ¬ FreeResult w i) ∧
      (∀ i ∈ w'.instances, w'.objs[i]? = w.objs[i]?) ∧ ∀ i ∈ w'.instances, ¬ FreeResult w' i := by
  classical
  let p : Id' → Bool := fun i => decide (FreeResult w i)
  have hsel : ∀ i, selected (hasName "Result") w i = true ↔ Named w "Result" i := by
    intro i
    unfold selected Named
    cases h : w.objs[i]? with
    | none => simp
    | some o => simp [hasName]
  have hD : Deletable (hasName "Result") p w := by
    refine ⟨hs, fun i hi hp => ?_, fun i hi hp hn => ?_⟩
    · have : FreeResult w i := of_decide_eq_true hp
      exact ⟨(hsel i).2 this.1, this.2⟩
    · have hnf : ¬ FreeResult w i := of_decide_eq_false hp
      have hname := (hsel i).1 hn
      have hu : Used w i := by
        by_contra hu
        exact hnf ⟨hname, hu⟩
      obtain ⟨j, h1, h2, h3, h4⟩ := huse i hi hname hu
      exact ⟨j, h1, h2, decide_eq_false h3, h4⟩
  obtain ⟨w', h1, h2, h3, h4⟩ := four_passes (deletes_try (p := p)) 4 w hD (fun a b c habc hb =>
    hrun a b c habc fun x hx => of_decide_eq_true (hb x hx))
  have hp : ∀ i, p i = false ↔ ¬ FreeResult w i := fun i => decide_eq_false_iff_not
  refine ⟨w', h1, fun i => by rw [h3, hp], fun i hi => h4 i (Or.inl hi), fun i hi hf => ?_⟩
  have hk := (h3 i).1 hi
  obtain ⟨j, k1, k2, k3, k4⟩ := h2.no i hi hk.2 (by
    unfold selected
    obtain ⟨o, ho, hn⟩ := hf.1
    rw [ho]
    simpa [hasName] using hn)
  exact hf.2 ⟨j, k1, k2, k4⟩

/-- C48: a session with an unused and a used object called `Result`. -/
example : ∃ w : World ℚ, Sound w ∧ NoRun 16 (FreeResult w) w.instances ∧ FreeResult w 2 ∧
    (∀ i ∈ w.instances, Named w "Result" i → Used w i → ∃ j ∈ w.instances, j ≠ i ∧ ¬ FreeResult w j ∧
      ∃ o, w.objs[j]? = some o ∧ Refers o i) := by
  have hs := sound_history (E := lineEngine) [] (lineCalls "Result" "W" ++ [.rename 1 "Result"]) fresh sound_fresh
  have hi : (history lineEngine [] (lineCalls "Result" "W" ++ [.rename 1 "Result"]) fresh).instances = [0, 1, 2, 3] := by
    decide +kernel
  refine ⟨_, hs, fun a b c h _ => ?_, ⟨⟨_, rfl, by decide +kernel⟩, fun h => ?_⟩, fun i h1 h2 h3 => ?_⟩
  · have := congrArg List.length h
    rw [hi] at this
    simp at this
    omega
  · exact absurd ((any_uses hs).2 h) (by decide +kernel)
  · rw [hi] at h1
    have : i = 0 ∨ i = 1 ∨ i = 2 ∨ i = 3 := by simpa using h1
    obtain ⟨o, ho, hn⟩ := h2
    rcases this with rfl | rfl | rfl | rfl
    · cases ho; exact absurd hn (by decide)
    · refine ⟨3, by rw [hi]; decide, by decide, ?_, _, rfl, Or.inr ⟨by decide, Or.inl rfl⟩⟩
      rintro ⟨⟨o, h4, h5⟩, -⟩
      cases h4
      exact absurd h5 (by decide)
    · exact absurd ((any_uses hs).2 h3) (by decide +kernel)
    · cases ho; exact absurd hn (by decide)

/-- **C48** is false in general: of sixteen unused objects called `Result` in a row one is left. -/
theorem C48_delete_results_false : EngineOK lineEngine ∧ ∃ (calls : List (Call ℚ)) (i : Id'),
    i ∈ (history lineEngine [] (calls ++ [.deleteResults]) fresh).instances ∧
    FreeResult (history lineEngine [] (calls ++ [.deleteResults]) fresh) i := by
  let calls : List (Call ℚ) := List.replicate 16 (.coordinates (.val "Result") (.val [1]) ["x"] (.tuple [1]) (.val "x"))
  have hi : (history lineEngine [] (calls ++ [.deleteResults]) fresh).instances = [15] := by decide +kernel
  have hn : ((history lineEngine [] (calls ++ [.deleteResults]) fresh).objs[15]?).map (·.name) = some "Result" := by
    decide +kernel
  obtain ⟨o, h1, h2⟩ := Option.map_eq_some_iff.1 hn
  refine ⟨lineEngine_ok, calls, 15, by rw [hi]; simp, ⟨o, h1, h2⟩, ?_⟩
  rintro ⟨j, hj, hne, -⟩
  rw [hi] at hj
  exact hne (List.mem_singleton.1 hj)

/-- **C49** After any sequence of calls, `clear_instances` returns, and the registry is empty. -/
theorem C49_clear (E : Engine K) (letters : List Sym) (calls : List (Call K)) :
    ∃ w', clearInstances (history E letters calls fresh) = (.ok (), w') ∧ w'.instances = [] :=
  clear_returns (sound_history letters calls fresh sound_fresh)

/-- C49: there is something to clear. -/
example : (history lineEngine [] (lineCalls "V" "W") fresh).instances.length = 4 := by decide +kernel

section
variable {G : Ground K} {V : View K} {F : Id' → TField K}

/-- **C50** If no object called `TEMP` is registered, then evaluating a formula and making a tensor of it with
`Calc` leaves exactly a quarter (rounded down) of its temporary tensors in the registry. -/
theorem C50_temporaries_exact (hE : EngineOK E) (hS : Scene G V w) (letters : List Sym) {f : Formula K}
    (hf : f.OK G V F) {name symbol : String} (hname : name ≠ "TEMP") {order : List Sym}
    (hi : order = [] ∨ order.Perm f.labels) (hno : ∀ i ∈ w.instances, ¬ Named w "TEMP" i) :
    Does (do let x ← f.eval E letters; calcResult E x name symbol order) w fun _ w' =>
      ∃ l : List Id', l.Nodup ∧ (∀ i, i ∈ l ↔ i ∈ w'.instances ∧ Named w' "TEMP" i) ∧ l.length = f.temps / 4 := by
  obtain ⟨r, w', h1, l, h2, h3, h4, h5, h6, h7⟩ := count_formula hE.simp_eq hS letters hf hname (symbol := symbol) hi hno
  refine ⟨r, w', h1, l, h7, fun i => ⟨fun hi => ⟨by rw [h2]; simp [hi], h5 i hi⟩, ?_⟩, h3⟩
  rintro ⟨hi, hn⟩
  rw [h2, List.mem_append, List.mem_append, List.mem_singleton] at hi
  rcases hi with (hi | hi) | hi
  · exact absurd hn (h4 i hi)
  · exact hi
  · exact absurd (hi ▸ hn) h6

/-- **C50** So formulae with fewer than four temporary tensors leave none. -/
theorem C50_temporaries_partial (hE : EngineOK E) (hS : Scene G V w) (letters : List Sym) {f : Formula K}
    (hf : f.OK G V F) (hsmall : f.temps < 4) {name symbol : String} (hname : name ≠ "TEMP") {order : List Sym}
    (hi : order = [] ∨ order.Perm f.labels) (hno : ∀ i ∈ w.instances, ¬ Named w "TEMP" i) :
    Does (do let x ← f.eval E letters; calcResult E x name symbol order) w fun _ w' =>
      ∀ i ∈ w'.instances, ¬ Named w' "TEMP" i := by
  refine Does.mono (C50_temporaries_exact hE hS letters hf hname hi hno) ?_
  rintro r w' ⟨l, -, h1, h2⟩ i hi hn
  have : i ∈ l := (h1 i).2 ⟨hi, hn⟩
  rw [List.length_eq_zero_iff.1 (show l.length = 0 by omega)] at this
  cases this

/-- **C50** is false in general: `Calc` leaves temporary tensors of every formula that makes four or more. -/
theorem C50_temporaries_false (hE : EngineOK E) (hS : Scene G V w) (letters : List Sym) {f : Formula K}
    (hf : f.OK G V F) (hlarge : 4 ≤ f.temps) {name symbol : String} (hname : name ≠ "TEMP") {order : List Sym}
    (hi : order = [] ∨ order.Perm f.labels) (hno : ∀ i ∈ w.instances, ¬ Named w "TEMP" i) :
    Does (do let x ← f.eval E letters; calcResult E x name symbol order) w fun _ w' =>
      ∃ i ∈ w'.instances, Named w' "TEMP" i := by
  refine Does.mono (C50_temporaries_exact hE hS letters hf hname hi hno) ?_
  rintro r w' ⟨l, -, h1, h2⟩
  cases l with
  | nil => simp at h2; omega
  | cons i l => exact ⟨i, (h1 i).1 (by simp)⟩

/-- C50: `-V` makes one temporary tensor, `V - (V - V)` makes four. -/
example : ∃ (G : Ground Poly) (V : View Poly) (w : World Poly) (F : Id' → TField Poly), Scene G V w ∧
    (∀ i ∈ w.instances, ¬ Named w "TEMP" i) ∧
    (Formula.neg (.tensor 3 ["a"])).OK G V F ∧ (Formula.neg (.tensor 3 ["a"]) : Formula Poly).temps = 1 ∧
    (Formula.sub (.tensor 3 ["a"]) (.sub (.tensor 3 ["a"]) (.tensor 3 ["a"]))).OK G V F ∧
    (Formula.sub (.tensor 3 ["a"]) (.sub (.tensor 3 ["a"]) (.tensor 3 ["a"])) : Formula Poly).temps = 4 := by
  obtain ⟨G, V, w, hS, h1, h2, h3, h4, h5, h6, h7, h8, h9⟩ := plane_named
  have hok : (Formula.tensor 3 ["a"]).OK G V (fun _ => ⟨"V", 0, [1], aVector.get⟩) := by
    refine ⟨h7, h2.symm, rfl, fun s => ?_, Or.inl (by simp)⟩
    have := List.count_le_length (a := s) (l := ["a"])
    simp only [List.length_singleton] at this
    omega
  refine ⟨G, V, w, _, hS, ?_, hok, rfl, ⟨hok, ⟨hok, hok, List.Perm.refl _⟩, List.Perm.refl _⟩, rfl⟩
  rintro i hi ⟨o, ho, hn⟩
  have := h9 i o ho
  rw [hn] at this
  simp at this

end

/-- **C51** Whatever a user evaluates, in whatever state, whether the evaluation and `Calc` return or raise: every
object that is not called `TEMP` stays as it is, apart from representations that are stored, and stays
registered if it was. -/
theorem C51_users_objects_partial (E : Engine K) (letters : List Sym) (e : Expr K) (name symbol : String)
    (order : List Sym) (w : World K) (i : Id') (o : Obj K) (ho : w.objs[i]? = some o) (hn : o.name ≠ "TEMP") :
    ∃ o', ((Call.calc e name symbol order).run E letters w).objs[i]? = some o' ∧ o'.kind = o.kind ∧
      o'.name = o.name ∧ o'.symbol = o.symbol ∧ o'.indices = o.indices ∧ o'.coords = o.coords ∧
      o'.metric = o.metric ∧ o'.syms = o.syms ∧ o'.trans = o.trans ∧ o'.alive = o.alive ∧
      (i ∈ ((Call.calc e name symbol order).run E letters w).instances ↔ i ∈ w.instances) := by
  obtain ⟨-, h⟩ := ((Sp.bind (n := w.objs.length) (Sp.eval letters e) fun x _ =>
    Sp.calcResult (E := E) x name symbol order) w le_rfl).1
  obtain ⟨o', h1, h2, h3⟩ := h i (lt_of_getElem? ho) o ho
  obtain ⟨h4, h5⟩ := h3 hn
  refine ⟨o', h1, congrArg (·.1) h4, congrArg (·.2.1) h4, congrArg (·.2.2.1) h4, congrArg (·.2.2.2.1) h4,
    congrArg (·.2.2.2.2.1) h4, congrArg (·.2.2.2.2.2.1) h4, congrArg (·.2.2.2.2.2.2.1) h4,
    congrArg (·.2.2.2.2.2.2.2.1) h4, congrArg (·.2.2.2.2.2.2.2.2) h4, h5⟩

/-- **C51** is false of a user's tensor that is called `TEMP`: any `Calc` deletes it. -/
theorem C51_users_objects_false : EngineOK lineEngine ∧
    3 ∈ (history lineEngine [] (lineCalls "V" "TEMP") fresh).instances ∧
    3 ∉ (history lineEngine [] (lineCalls "V" "TEMP" ++ [.calc (.tensor 2 ["a"]) "Result" "r" []]) fresh).instances :=
  ⟨lineEngine_ok, by decide +kernel, by decide +kernel⟩

/-- `CovariantD("a") @ V("b")`. -/
def Spec.covariantV : Expr ℚ := .mul (.derivative .covariantD ["a"]) (.tensor 2 ["b"])

/-- `CovariantD("a") @ (2 * V("b"))`. -/
def Spec.covariantTwice : Expr ℚ := .mul (.derivative .covariantD ["a"]) (.scale 2 (.tensor 2 ["b"]))

/-- **C31, C51** are false of covariant derivatives of temporary tensors: once the Christoffel symbols are
registered, `CovariantD("a") @ (2 * V("b"))` raises `AttributeError`, because the tensor `2 * V` is deleted before it is
used for the last time. -/
theorem C31_temporary_false : EngineOK lineEngine ∧
    (covariantTwice.eval lineEngine ["a", "b", "c", "d"] (history lineEngine ["a", "b", "c", "d"]
      (lineCalls "V" "W" ++ [.calc covariantV "Result" "r" []]) fresh)).1 = .error .attributeError :=
  ⟨lineEngine_ok, by decide +kernel⟩

/-- `CovariantD("a") @ W("b")`. -/
def Spec.covariantW : Expr ℚ := .mul (.derivative .covariantD ["a"]) (.tensor 3 ["b"])

/-- **C70** is false: neither the sum nor the difference nor the product of two covariant derivatives can be evaluated, nor
a second covariant derivative, although each covariant derivative can. -/
theorem C70_two_covariant_derivatives_false : EngineOK lineEngine ∧
    (∀ e ∈ [covariantV, covariantW], ∃ z, (e.eval lineEngine ["a", "b", "c", "d", "e"]
      (history lineEngine ["a", "b", "c", "d", "e"] (lineCalls "V" "W") fresh)).1 = .ok z) ∧
    ∀ p ∈ [(Expr.add covariantV covariantW, PyErr.valueError), (Expr.sub covariantV covariantW, PyErr.attributeError),
        (Expr.mul covariantV covariantW, PyErr.valueError),
        (Expr.mul (.derivative .covariantD ["c"]) covariantV, PyErr.attributeError)],
      (p.1.eval lineEngine ["a", "b", "c", "d", "e"]
        (history lineEngine ["a", "b", "c", "d", "e"] (lineCalls "V" "W") fresh)).1 = .error p.2 := by
  refine ⟨lineEngine_ok, fun e he => ?_, fun p hp => ?_⟩
  · have h : e = covariantV ∨ e = covariantW := by simpa using he
    rcases h with rfl | rfl
    · exact ⟨⟨.tensor, some 19, ["a", "b"]⟩, by decide +kernel⟩
    · exact ⟨⟨.tensor, some 19, ["a", "b"]⟩, by decide +kernel⟩
  · simp only [List.mem_cons, List.not_mem_nil, or_false] at hp
    rcases hp with rfl | rfl | rfl | rfl <;> decide +kernel

end PyOGRe
