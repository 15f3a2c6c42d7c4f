import Verif.Props.Display
import Verif.Props.Utils

/-!
# What `show` displays: C76
-/

namespace PyOGRe
open Spec

variable {K : Type}

/-- `a` shows `b` with `g` applied to every component: a vector is a column, everything else keeps its shape. -/
def Spec.Displays [Zero K] (n : Nat) (g : K → K) (a b : Arr K) : Prop :=
  if b.rank = 1 then a.shape = [n, 1] ∧ ∀ i < n, a.get [i, 0] = g (b.get [i])
  else a.shape = b.shape ∧ ∀ I ∈ tuples n b.rank, a.get I = g (b.get I)

theorem get_column [Zero K] (n : Nat) (d : List K) (i : Nat) :
    (⟨[n, 1], d⟩ : Arr K).get [i, 0] = (⟨[n], d⟩ : Arr K).get [i] := by
  simp [Arr.get, ravel]

/-- The components that `show` starts from: a vector is turned into a column. -/
def asColumn (b : Arr K) : Arr K := match b.shape with
  | [n] => ⟨[n, 1], b.data⟩
  | _ => b

theorem asColumn_other {b : Arr K} (h : b.rank ≠ 1) : asColumn b = b := by
  rcases b with ⟨_ | ⟨m, _ | ⟨k, s⟩⟩, d⟩
  · rfl
  · exact absurd rfl h
  · rfl

theorem asColumn_displays [Zero K] {n : Nat} {b : Arr K} (hb : b.shape = List.replicate b.rank n)
    (replace : Option (K → K)) :
    Displays n (replace.getD id) (match replace with
      | none => asColumn b
      | some f => (asColumn b).map f) b := by
  unfold Displays
  split_ifs with hr
  · rcases b with ⟨s, d⟩
    have hs : s = [n] := by
      have : s = List.replicate 1 n := by rw [← hr]; exact hb
      exact this
    subst hs
    cases replace with
    | none => exact ⟨rfl, fun i _ => get_column n d i⟩
    | some f =>
      refine ⟨rfl, fun i hi => ?_⟩
      show Arr.get (Arr.map f ⟨[n, 1], d⟩) [i, 0] = _
      rw [Arr.get_map (show Valid [n, 1] [i, 0] from by simp [Valid, hi]), get_column]
      rfl
  · rw [asColumn_other hr]
    cases replace with
    | none => exact ⟨rfl, fun _ _ => rfl⟩
    | some f =>
      refine ⟨rfl, fun I hI => ?_⟩
      rw [tuples_eq_allIdx, ← hb] at hI
      exact Arr.get_map (mem_allIdx.1 hI)

theorem shown_displays [Zero K] [One K] [Add K] [Mul K] {E : Engine K} {t c : Id'} {ix : List Int}
    {w w' : World K} {b : Arr K} {n : Nat} (h : getRepresentation E t c ix w = (.ok b, w')) (hn : 0 < n)
    (hb : b.shape = List.replicate b.rank n) (function replace : Option (K → K))
    (hf : function = none ∨ b.rank ≠ 1 ∧ Native w' t c) :
    ∃ a, shownComponents E t c ix function replace true w = (.ok a, w') ∧
      Displays n (fun x => (replace.getD id) ((function.getD id) x)) a b := by
  cases function with
  | none =>
    refine ⟨_, ?_, asColumn_displays hb replace⟩
    unfold shownComponents
    refine PyM.then_ok h (PyM.then_ok (w' := w') rfl ?_)
    refine PyM.then_ok (a := asColumn b) (w' := w') ?_ ?_
    · rcases b with ⟨_ | ⟨m, _ | ⟨k, s⟩⟩, d⟩ <;> rfl
    · cases replace <;> rfl
  | some f =>
    obtain ⟨hr, hnat⟩ := hf.resolve_left (by simp)
    obtain ⟨a, h1, -, h2, h3⟩ := mapToArray_uniform f hn b hb
    have hv : ∀ I ∈ tuples n b.rank, Valid b.shape I := by
      intro I hI
      rw [tuples_eq_allIdx, ← hb] at hI
      exact mem_allIdx.1 hI
    refine ⟨match replace with
      | none => a
      | some g => a.map g, ?_, ?_⟩
    · unfold shownComponents
      refine PyM.then_ok h (PyM.then_ok (isBare_native fun o _ => hnat) ?_)
      refine PyM.then_ok (a := a) (w' := w') ?_ ?_
      · rw [PyM.lift_apply, ← h1]
        simp only [if_true, Bool.false_eq_true, if_false, showWithFunction]
        rcases b with ⟨_ | ⟨m, _ | ⟨k, s⟩⟩, d⟩
        · rfl
        · exact absurd rfl hr
        · rfl
      · cases replace <;> rfl
    · unfold Displays
      rw [if_neg hr]
      cases replace with
      | none => exact ⟨h2, fun I hI => h3 I (hv I hI)⟩
      | some g =>
        refine ⟨h2, fun I hI => ?_⟩
        show (a.map g).get I = _
        rw [Arr.get_map (by rw [h2]; exact hv I hI), h3 I (hv I hI)]
        rfl

/-- Showing the components once they are known. -/
theorem showTensor_of [CommRing K] (E : Engine K) (T : Typeset K) (opt : Options)
    {w w' : World K} {t : Id'} {c : Option Id'} {ix : Option (List Int)} {b : Arr K} {o oc : Obj K}
    (hg : getComponents E t c ix w = (.ok b, w')) (ho : w.objs[t]? = some o)
    (hc : w.objs[c.getD o.coords]? = some oc) (hca : oc.alive = true)
    {letters : List Sym} (hl : opt.letters = .many letters) (hr : o.indices.length ≤ letters.length)
    {function replace : Option (K → K)} {a : Arr K}
    (ha : shownComponents E t (c.getD o.coords) (ix.getD o.indices) function replace true w = (.ok a, w')) :
    showTensor E T opt t c ix function replace w = (.ok [.array o.name.toList
        (symbolText T.symbol opt.latex o.symbol ++
          indexed T.symbol opt.latex (ix.getD o.indices) (letters.take o.indices.length)) oc.syms a], w') := by
  obtain ⟨a0, -, h0⟩ := show_ok E T opt hg ho hc hca hl hr
  obtain ⟨o', hoo, hal⟩ := getComponents_alive hg
  rw [ho] at hoo; cases hoo
  unfold showTensor at h0 ⊢
  refine PyM.then_ok (getObj_ok ho hal) ?_
  obtain ⟨o1, w1, k1, h0⟩ := bind_ok h0
  obtain ⟨rfl, k2, -⟩ := getObj_inv k1
  rw [ho] at k2; cases k2
  obtain ⟨a1, w2, k3, h0⟩ := bind_ok h0
  obtain ⟨label, w3, k4, h0⟩ := bind_ok h0
  obtain ⟨c1, w4, k5, h0⟩ := bind_ok h0
  have e3 := (getObj_inv k5).1
  have e2 : w3 = w2 := by rw [PyM.lift_apply] at k4; exact (congrArg Prod.snd k4).symm
  have e4 : w4 = w' := congrArg Prod.snd h0
  have e5 := congrArg Prod.fst h0
  simp only [PyM.pure_apply, Except.ok.injEq, List.cons.injEq, Out.array.injEq] at e5
  obtain ⟨⟨-, e6, e7, -⟩, -⟩ := e5
  subst e4
  subst e3
  subst e2
  refine PyM.then_ok ha (PyM.then_ok k4 (PyM.then_ok k5 ?_))
  rw [← e6, ← e7]
  rfl

/-- **C76** (part that holds): `show` displays the name, the symbol with one letter for every index of the requested
configuration, the symbols of the requested coordinates, and the components that `get_components` returns, with
`function` and then `replace` applied to each; a vector is shown as a column.  The session changes as with
`get_components`.  Missing: vectors with a `function` (`C76_false`), and scalars with a `function` in coordinates other
than those in which they were made (`C76_scalar_false`). -/
theorem C76_show_partial [CommRing K] (E : Engine K) (T : Typeset K) (opt : Options)
    {w w' : World K} {t : Id'} {c : Option Id'} {ix : Option (List Int)} {b : Arr K} {o oc : Obj K}
    (hg : getComponents E t c ix w = (.ok b, w')) (ho : w.objs[t]? = some o)
    (hc : w.objs[c.getD o.coords]? = some oc) (hca : oc.alive = true)
    {letters : List Sym} (hl : opt.letters = .many letters) (hr : o.indices.length ≤ letters.length)
    {n : Nat} (hn : 0 < n) (hb : b.shape = List.replicate b.rank n) (function replace : Option (K → K))
    (hf : function = none ∨ b.rank ≠ 1 ∧ Native w' t (c.getD o.coords)) :
    ∃ a, Displays n (fun x => (replace.getD id) ((function.getD id) x)) a b ∧
      showTensor E T opt t c ix function replace w = (.ok [.array o.name.toList
        (symbolText T.symbol opt.latex o.symbol ++
          indexed T.symbol opt.latex (ix.getD o.indices) (letters.take o.indices.length)) oc.syms a], w') := by
  obtain ⟨o', hoo, hal⟩ := getComponents_alive hg
  rw [ho] at hoo; cases hoo
  have hg' := hg
  rw [getComponents_eq ho hal] at hg'
  obtain ⟨a, h1, h2⟩ := shown_displays hg' hn hb function replace hf
  exact ⟨a, h2, showTensor_of E T opt hg ho hc hca hl hr h1⟩

/-- C76 is false of the code for vectors with a `function`: whatever the vector and the function are, an array with
`n` rows and `n` columns is displayed. -/
theorem C76_false [CommRing K] (E : Engine K) (T : Typeset K) (opt : Options)
    {w w' : World K} {t : Id'} {c : Option Id'} {ix : Option (List Int)} {b : Arr K} {o oc : Obj K}
    (hg : getComponents E t c ix w = (.ok b, w')) (ho : w.objs[t]? = some o)
    (hc : w.objs[c.getD o.coords]? = some oc) (hca : oc.alive = true)
    {letters : List Sym} (hl : opt.letters = .many letters) (hr : o.indices.length ≤ letters.length)
    (hi : o.indices ≠ []) {n : Nat} (hn : 2 ≤ n) (hb : b.shape = [n]) (f : K → K) :
    ∃ a name label syms, a.shape = [n, n] ∧ showTensor E T opt t c ix (some f) none w = (.ok [.array name label syms a], w') := by
  obtain ⟨o', hoo, hal⟩ := getComponents_alive hg
  rw [ho] at hoo; cases hoo
  have hg' := hg
  rw [getComponents_eq ho hal] at hg'
  obtain ⟨a, h1, h2⟩ := C07_map_to_array_not_pointwise f n hn b hb
  refine ⟨a, _, _, _, h2, showTensor_of E T opt hg ho hc hca hl hr (a := a) ?_⟩
  unfold shownComponents
  have hs := getComponents_steady (E := E) t c ix w
  rw [hg] at hs
  refine PyM.then_ok hg' (PyM.then_ok (isBare_native fun _ _ o' ho' hi' => ?_)
    (PyM.then_ok (a := a) (w' := w') ?_ rfl))
  · obtain ⟨o2, k1, k2⟩ := hs.get ho
    rw [ho'] at k1; cases k1
    have : o'.indices = o.indices := congrArg (·.2.2.2.1) k2
    exact absurd (this.symm.trans hi') hi
  rw [PyM.lift_apply, ← h1]
  rfl

/-- C76 is false of the code for scalars with a `function` in coordinates other than those in which they were made:
whatever the function is, `show` and `list` raise `TypeError`. -/
theorem C76_scalar_false [CommRing K] [DecidableEq K] (E : Engine K) (T : Typeset K) (opt : Options)
    {w w' : World K} {t : Id'} {c : Option Id'} {ix : Option (List Int)} {b : Arr K} {o o' : Obj K}
    (hg : getComponents E t c ix w = (.ok b, w')) (ho : w.objs[t]? = some o) (ho' : w'.objs[t]? = some o')
    (hn : ¬ Native w' t (c.getD o.coords)) (f : K → K) (replace : Option (K → K)) :
    showTensor E T opt t c ix (some f) replace w = (.error .typeError, w') ∧
      listTensor E T opt t c ix (some f) replace w = (.error .typeError, w') := by
  obtain ⟨o2, hoo, hal⟩ := getComponents_alive hg
  rw [ho] at hoo; cases hoo
  rw [getComponents_eq ho hal] at hg
  have hsh : ∀ column, shownComponents E t (c.getD o.coords) (ix.getD o.indices) (some f) replace column w =
      (.error .typeError, w') := by
    intro column
    unfold shownComponents
    exact PyM.then_ok hg (PyM.then_ok (isBare_moved ho' hn) rfl)
  constructor
  · unfold showTensor
    refine PyM.then_ok (getObj_ok ho hal) ?_
    refine (PyM.bind_apply _ _ _).trans ?_
    rw [hsh]
  · unfold listTensor
    refine PyM.then_ok (getObj_ok ho hal) ?_
    refine (PyM.bind_apply _ _ _).trans ?_
    rw [hsh]

/-- C76: a tensor of rank two with one index raised, a function and a replacement; and a vector with a replacement. -/
example : ((showTensor codeEngine codeTypeset { latex := false } 3 none (some [1, -1]) (some fun x => 2 * x)
      (some fun x => x + 1) displayWorld).1 =
        .ok [.array ['F'] "F^a_b".toList ["x", "y"] ⟨[2, 2], [1, 3, -1, 1]⟩]) ∧
    ((showTensor codeEngine codeTypeset { latex := false } 2 none none none (some fun x => x + 1) displayWorld).1 =
        .ok [.array ['V'] "v^a".toList ["x", "y"] ⟨[2, 1], [101, 3]⟩]) := by
  decide +kernel

/-- C76: a vector with a function. -/
example : (showTensor codeEngine codeTypeset { latex := false } 2 none none (some fun x => x + 1) none
      displayWorld).1 = .ok [.array ['V'] "v^a".toList ["x", "y"] ⟨[2, 2], [101, 0, 3, 0]⟩] := by
  decide +kernel

end PyOGRe
