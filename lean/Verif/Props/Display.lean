import Verif.Lemmas.Display
import Verif.Props.Registry
import Verif.Lemmas.Utils
import Verif.Props.Charts
import Verif.Spec.Codes
import Mathlib.Tactic.FieldSimp
import Mathlib.Tactic.Linarith

/-! # What is displayed (C62 - C65) -/

namespace PyOGRe
open Spec
variable {K : Type}

theorem Spec.Grouped.congr [Ring K] {n r : Nat} {comp comp' : List Nat → K} {groups : List (K × List (Bool × List Nat))}
    (h : Grouped n r comp groups) (he : ∀ I ∈ tuples n r, comp I = comp' I) : Grouped n r comp' groups := by
  obtain ⟨h1, h2, h3, h4, h5⟩ := h
  refine ⟨fun I hI hc => h1 I hI (by rwa [he I hI]), fun g hg e hh => ?_, fun g hg e hh => ?_, h4, h5⟩
  · obtain ⟨a, b⟩ := h2 g hg e hh
    exact ⟨a, by rwa [← he _ a]⟩
  · rw [← he _ (h2 g hg e hh).1]
    exact h3 g hg e hh

theorem getComponents_eq [Zero K] [One K] [Add K] [Mul K] {E : Engine K} {t : Id'} {o : Obj K} {w : World K}
    (ho : w.objs[t]? = some o) (ha : o.alive = true) (c : Option Id') (ix : Option (List Int)) :
    getComponents E t c ix w = getRepresentation E t (c.getD o.coords) (ix.getD o.indices) w := by
  unfold getComponents
  rw [PyM.bind_apply, getObj_ok ho ha]

theorem getComponents_alive [Zero K] [One K] [Add K] [Mul K] {E : Engine K} {t : Id'} {c : Option Id'}
    {ix : Option (List Int)} {w w' : World K} {b : Arr K} (h : getComponents E t c ix w = (.ok b, w')) :
    ∃ o, w.objs[t]? = some o ∧ o.alive = true := by
  unfold getComponents at h
  obtain ⟨o, w1, h1, -⟩ := bind_ok h
  obtain ⟨-, h2, h3⟩ := getObj_inv h1
  exact ⟨o, h2, h3⟩

/-- The components after `function` and `replace`. -/
theorem shownComponents_ok [Zero K] [One K] [Add K] [Mul K] {E : Engine K} {t c : Id'} {ix : List Int}
    {w w' : World K} {b : Arr K} {n : Nat} (h : getRepresentation E t c ix w = (.ok b, w')) (hn : 0 < n)
    (hb : b.shape = List.replicate b.rank n) (function replace : Option (K → K))
    (hf : function = none ∨ Native w' t c) :
    ∃ a, shownComponents E t c ix function replace false w = (.ok a, w') ∧
      ∀ I ∈ tuples n b.rank, a.get I = (replace.getD id) ((function.getD id) (b.get I)) := by
  have hv : ∀ I ∈ tuples n b.rank, Valid b.shape I := by
    intro I hI
    rw [tuples_eq_allIdx, ← hb] at hI
    exact mem_allIdx.1 hI
  have step : ∃ a : Arr K, (match function with
      | none => (.ok b : Py (Arr K))
      | some f => mapToArray b f) = .ok a ∧ a.shape = b.shape ∧
      ∀ I, Valid b.shape I → a.get I = (function.getD id) (b.get I) := by
    cases function with
    | none => exact ⟨b, rfl, rfl, fun _ _ => rfl⟩
    | some f =>
      obtain ⟨a, h1, -, h2, h3⟩ := mapToArray_uniform f hn b hb
      exact ⟨a, h1, h2, h3⟩
  obtain ⟨a, h1, h2, h3⟩ := step
  have hbare : ∃ bare, isBare t (some c) w' = (.ok bare, w') ∧ (function = none ∨ bare = false) := by
    rcases hf with rfl | hf
    · exact ⟨_, rfl, .inl rfl⟩
    · exact ⟨_, isBare_native fun o _ => hf, .inr rfl⟩
  obtain ⟨bare, hb1, hb2⟩ := hbare
  unfold shownComponents
  rw [PyM.bind_apply, h]
  dsimp only
  rw [PyM.bind_apply, hb1]
  dsimp only
  rw [PyM.bind_apply, PyM.lift_apply]
  have fin : ∃ a', ((match (Except.ok a, w') with
      | (Except.ok a, w') => (pure (match replace with
        | none => a
        | some f => a.map f) : PyM K (Arr K)) w'
      | (Except.error e, w') => (Except.error e, w')) : Py (Arr K) × World K) = (.ok a', w') ∧
      ∀ I ∈ tuples n b.rank, a'.get I = (replace.getD id) ((function.getD id) (b.get I)) := by
    cases replace with
    | none => exact ⟨a, rfl, fun I hI => h3 I (hv I hI)⟩
    | some f => exact ⟨a.map f, rfl, fun I hI => by
        rw [Arr.get_map (by rw [h2]; exact hv I hI), h3 I (hv I hI)]; rfl⟩
  cases function with
  | none =>
    dsimp only at h1
    cases h1
    exact fin
  | some f =>
    dsimp only at h1
    rw [hb2.resolve_left (by simp)]
    simp only [Bool.false_eq_true, if_false, h1]
    exact fin

theorem groupEntries_congr {V L : Type} [Zero V] [Add V] [Sub V] [DecidableEq V] {comp comp' : List Nat → V}
    {plus minus : List Nat → L} {P : List (List Nat)} (h : ∀ I ∈ P, comp I = comp' I) :
    groupEntries comp plus minus P = groupEntries comp' plus minus P := by
  unfold groupEntries
  apply List.foldl_ext
  intro d I hI
  rw [h I hI]

theorem entryShown_eq (T : Typeset K) (latex : Bool) (symbol : String) (ix : List Int)
    (hix : ∀ x ∈ ix, x = 1 ∨ x = -1) (syms : List Sym) :
    (fun e : Bool × List Nat => entryShown T.symbol latex symbol ix syms e) = fun e => if e.1 then
      '-' :: positionLabel T latex syms (symbolText T.symbol latex symbol) ix e.2 else
      positionLabel T latex syms (symbolText T.symbol latex symbol) ix e.2 := by
  funext e
  rw [positionLabel_eq T latex syms _ ix hix]
  unfold entryShown
  cases e.1 <;> simp

theorem listLatex_page (T : Typeset K) (opt : Options) (hp : 0 < opt.perLine) (name : String)
    (shown : Bool × List Nat → List Char) (groups : List (K × List (Bool × List Nat)))
    (hne : ∀ g ∈ groups, g.2 ≠ []) :
    ∃ out, listLatex T opt name (groups.map fun g => (g.1, g.2.map shown)) = .ok out ∧
      Page T opt name shown groups out := by
  have hhead : ∀ s, name.toList <:+: heading opt name ++ s := by
    intro s
    unfold heading
    refine ⟨"<div align=center style='font-size:".toList ++ intText (opt.fontSize + 2) ++
      "pt;margin-bottom:12pt'> \n\n".toList, ":".toList ++ "\n\n </div>".toList ++ s, ?_⟩
    simp only [List.append_assoc]
  by_cases h : groups = []
  · subst h
    refine ⟨_, rfl, _, hhead ("<div align=center style='font-size:".toList ++ intText opt.fontSize),
      Or.inl ⟨rfl, ?_⟩⟩
    simp only [List.append_assoc]
  · unfold listLatex
    rw [if_neg (by simpa using h), if_neg (by omega)]
    refine ⟨_, rfl, heading opt name ++ ("<div align=center style='font-size:".toList ++ intText opt.fontSize),
      hhead _, Or.inr ⟨h, groups.map fun g => groupText opt.perLine.toNat (T.expr g.1) (g.2.map shown), ?_, ?_⟩⟩
    · rw [List.forall₂_map_right_iff]
      refine List.forall₂_same.2 fun g hg => ?_
      exact groupText_broken (by omega) _ _ (by simpa using hne g hg)
    · rw [joinText_eq, List.map_map]
      simp only [List.append_assoc]
      rfl

/-! ## C62: `list` shows every non-zero component exactly once -/

/-- Listing components that are known. -/
theorem list_finish [CommRing K] [Algebra ℚ K] [DecidableEq K] (T : Typeset K) (opt : Options)
    {w' : World K} {coords : Id'} {indices : List Int} {a : Arr K} {D : List Nat → K} {o oh oc oh' oc' : Obj K}
    (hr : 0 < o.indices.length) (hix : ∀ x ∈ indices, x = 1 ∨ x = -1)
    (hpos : ∀ I ∈ allIdx (List.replicate o.indices.length oh.syms.length), a.get I = D I)
    (hh' : w'.objs[o.coords]? = some oh') (hha' : oh'.alive = true) (hsy : oh'.syms = oh.syms)
    (hc' : w'.objs[coords]? = some oc') (hca' : oc'.alive = true) (hsyc : oc'.syms = oc.syms)
    {letters : List Sym} (hl : opt.letters = .many letters) (hp : 0 < opt.perLine) :
    ∃ groups out, (do
      let home ← getObj o.coords
      let positions := allIdx (List.replicate o.indices.length home.syms.length)
      let groups ← listGroups T opt o coords indices positions a
      if opt.latex then PyM.lift (listLatex T opt o.name groups) else return listPlain o.name groups) w' = (.ok out, w') ∧
      Grouped oh.syms.length o.indices.length D groups ∧
      if opt.latex then
        Page T opt o.name (entryShown T.symbol true o.symbol indices oc.syms) groups out
      else Printed o.name (entryShown T.symbol false o.symbol indices oc.syms) groups out := by
  have hq : ∀ x : K, x + x = 0 → x = 0 := by
    intro x hx
    have : (2 : ℚ) • x = 0 := by rw [two_smul]; exact hx
    have h2 : (2 : ℚ)⁻¹ • (2 : ℚ) • x = 0 := by rw [this, smul_zero]
    rwa [smul_smul, inv_mul_cancel₀ (by norm_num), one_smul] at h2
  set groups := groupEntries D (fun I => (false, I)) (fun I => (true, I))
    (allIdx (List.replicate o.indices.length oh.syms.length)) with hgr
  have hG : Grouped oh.syms.length o.indices.length D groups := groupEntries_grouped hq D _ _
  set shown := entryShown T.symbol opt.latex o.symbol indices oc.syms with hsh
  have hsh' : shown = fun e => if e.1 then
      '-' :: positionLabel T opt.latex oc.syms (symbolText T.symbol opt.latex o.symbol) indices e.2 else
      positionLabel T opt.latex oc.syms (symbolText T.symbol opt.latex o.symbol) indices e.2 :=
    entryShown_eq T opt.latex o.symbol indices hix oc.syms
  have hmap : groupEntries a.get
      (positionLabel T opt.latex oc.syms (symbolText T.symbol opt.latex o.symbol) indices)
      (fun I => '-' :: positionLabel T opt.latex oc.syms (symbolText T.symbol opt.latex o.symbol) indices I)
      (allIdx (List.replicate o.indices.length oh.syms.length)) = groups.map fun g => (g.1, g.2.map shown) := by
    rw [hgr, ← groupEntries_map, groupEntries_congr hpos, hsh']
    rfl
  have hrun : (do
      let home ← getObj o.coords
      let positions := allIdx (List.replicate o.indices.length home.syms.length)
      let groups ← listGroups T opt o coords indices positions a
      if opt.latex then PyM.lift (listLatex T opt o.name groups) else return listPlain o.name groups) w' =
      (if opt.latex then PyM.lift (listLatex T opt o.name (groups.map fun g => (g.1, g.2.map shown)))
        else pure (listPlain o.name (groups.map fun g => (g.1, g.2.map shown)))) w' := by
    refine PyM.then_ok (getObj_ok hh' hha') ?_
    refine PyM.then_ok (a := groups.map fun g => (g.1, g.2.map shown)) (w' := w') ?_ rfl
    unfold listGroups
    rw [if_neg (by omega), hsy]
    by_cases hz : (allIdx (List.replicate o.indices.length oh.syms.length)).all fun I => decide (a.get I = 0)
    · rw [if_pos hz]
      have : ∀ I ∈ allIdx (List.replicate o.indices.length oh.syms.length), D I = 0 := by
        intro I hI
        rw [← hpos I hI]
        exact of_decide_eq_true (List.all_eq_true.1 hz I hI)
      rw [hgr, groupEntries_eq_nil this]
      rfl
    · rw [if_neg hz]
      refine PyM.then_ok (w' := w') (by
        rw [PyM.lift_apply, eqSymbol_ok T opt o [] letters hl (by simp) (Nat.zero_le _) (Nat.zero_le _)]) ?_
      refine PyM.then_ok (getObj_ok hc' hca') ?_
      rw [← hmap, hsyc]
      simp [indexed]
  rw [hrun]
  cases hlx : opt.latex with
  | true =>
    obtain ⟨out, q1, q2⟩ := listLatex_page T opt hp o.name shown groups hG.nonempty
    refine ⟨groups, out, ?_, hG, ?_⟩
    · rw [if_pos rfl, PyM.lift_apply, q1]
    · rw [if_pos rfl]
      rw [hsh, hlx] at q2
      exact q2
  | false =>
    refine ⟨groups, _, rfl, hG, ?_⟩
    rw [if_neg (by simp)]
    unfold listPlain Printed
    rw [hsh, hlx]
    congr 1
    by_cases hz : groups = []
    · rw [if_pos hz, if_pos (by rw [hz]; rfl)]
    · rw [if_neg hz, if_neg (by simpa using hz), List.flatMap_map]
      simp only [List.map_map]
      rfl

/-- **C62** Whenever the components of a tensor with indices can be had with `get_components(coords, indices)`,
`list` with the same arguments (and any `function` and `replace`) shows them, with the same effects on the
session: the components (after `function` and `replace`) are grouped by their values, every non-zero one occurs
exactly once, with a minus sign iff it is the negative of the value shown for its group, and no zero one occurs; the
groups appear as equations, on a page if LaTeX is used and printed one by one otherwise. -/
theorem C62_list [CommRing K] [Algebra ℚ K] [DecidableEq K] (E : Engine K) (T : Typeset K) (opt : Options)
    {w w' : World K} {t : Id'} {c : Option Id'} {ix : Option (List Int)} {b : Arr K} {o oh oc : Obj K}
    (hg : getComponents E t c ix w = (.ok b, w')) (ho : w.objs[t]? = some o) (hr : 0 < o.indices.length)
    (hh : w.objs[o.coords]? = some oh) (hha : oh.alive = true)
    (hc : w.objs[c.getD o.coords]? = some oc) (hca : oc.alive = true)
    (hb : b.shape = List.replicate o.indices.length oh.syms.length) (hn : 0 < oh.syms.length)
    {letters : List Sym} (hl : opt.letters = .many letters) (hp : 0 < opt.perLine) (function replace : Option (K → K)) :
    ∃ groups out, listTensor E T opt t c ix function replace w = (.ok out, w') ∧
      Grouped oh.syms.length o.indices.length (fun I => (replace.getD id) ((function.getD id) (b.get I))) groups ∧
      if opt.latex then
        Page T opt o.name (entryShown T.symbol true o.symbol (ix.getD o.indices) oc.syms) groups out
      else Printed o.name (entryShown T.symbol false o.symbol (ix.getD o.indices) oc.syms) groups out := by
  obtain ⟨o', ho', ha⟩ := getComponents_alive hg
  rw [ho] at ho'; cases ho'
  have hs := getComponents_steady (E := E) t c ix w
  rw [hg] at hs
  obtain ⟨oh', hh', eh⟩ := hs.get hh
  obtain ⟨oc', hc', ec⟩ := hs.get hc
  have hsy : oh'.syms = oh.syms := congrArg (·.2.2.2.2.2.2.1) eh
  have hha' : oh'.alive = true := (congrArg (·.2.2.2.2.2.2.2.2) eh).trans hha
  have hsyc : oc'.syms = oc.syms := congrArg (·.2.2.2.2.2.2.1) ec
  have hca' : oc'.alive = true := (congrArg (·.2.2.2.2.2.2.2.2) ec).trans hca
  rw [getComponents_eq ho ha] at hg
  have hrank : b.rank = o.indices.length := by unfold Arr.rank; rw [hb, List.length_replicate]
  obtain ⟨a, ha1, ha2⟩ := shownComponents_ok (n := oh.syms.length) hg hn (by rw [hrank]; exact hb) function replace
    (.inr fun o' ho' hi => by
      obtain ⟨o2, k1, k2⟩ := hs.get ho
      rw [ho'] at k1; cases k1
      have : o'.indices = o.indices := congrArg (·.2.2.2.1) k2
      rw [← this, hi] at hr
      exact absurd hr (by simp))
  rw [hrank] at ha2
  have hval := hg
  unfold getRepresentation at hval
  obtain ⟨bb, w1, k1, hval⟩ := bind_ok hval
  have hix : ∀ x ∈ ix.getD o.indices, x = 1 ∨ x = -1 := by
    rw [isCoordinates_apply] at k1
    cases k1
    split_ifs at hval with h
    · cases hval
    · obtain ⟨o2, w2, k2, hval⟩ := bind_ok hval
      obtain ⟨rfl, k3, -⟩ := getObj_inv k2
      rw [ho] at k3; cases k3
      obtain ⟨u, w3, k4, -⟩ := bind_ok hval
      rw [PyM.lift_apply] at k4
      exact (validateIndices_ok (congrArg Prod.fst k4)).2
  obtain ⟨groups, out, h1, h2, h3⟩ := list_finish T opt (a := a) hr hix
    (fun I hI => ha2 I (by rw [tuples_eq_allIdx]; exact hI)) hh' hha' hsy hc' hca' hsyc hl hp
  refine ⟨groups, out, ?_, h2, h3⟩
  unfold listTensor
  exact PyM.then_ok (getObj_ok ho ha) (PyM.then_ok ha1 h1)

/-- A session with an antisymmetric tensor (object 3) and a scalar that is zero (object 4). -/
def Spec.displayWorld : World ℚ := history codeEngine [] (codeCalls ++
  [.tensor (.val "F") (.val ⟨[2, 2], [0, 1, -1, 0]⟩) 1 0 (.tuple [-1, -1]) (.val "F"),
   .tensor (.val "S") (.val ⟨[], [0]⟩) 1 0 (.tuple []) (.val "s")]) fresh

/-- Typesetting for this session. -/
def Spec.codeTypeset : Typeset ℚ := ⟨codePrinter.code, codePrinter.symbol⟩

/-- C62: the hypotheses hold for the antisymmetric tensor, and what is printed. -/
example : (getComponents codeEngine 3 none none displayWorld).1 = .ok ⟨[2, 2], [0, 1, -1, 0]⟩ ∧
    (listTensor codeEngine codeTypeset { latex := false } 3 none none none none displayWorld).1 =
      .ok [.line ['F', ':'], .equation "F_x_y".toList 1, .equation "-F_y_x".toList 1] := by
  decide +kernel

/-- A scalar is shown whatever its value: C62 does not extend to the zero scalar, which is shown too. -/
theorem C62_scalar_false [CommRing K] [DecidableEq K] (E : Engine K) (T : Typeset K) (opt : Options)
    {w w' : World K} {t : Id'} {c : Option Id'} {b : Arr K} {o oh : Obj K}
    (hg : getComponents E t c none w = (.ok b, w')) (ho : w.objs[t]? = some o) (hr : o.indices = [])
    (hh : w.objs[o.coords]? = some oh) (hha : oh.alive = true)
    {letters : List Sym} (hl : opt.letters = .many letters) (hx : opt.latex = false) :
    listTensor E T opt t c none none none w =
      (.ok [.line (o.name.toList ++ [':']), .equation (symbolText T.symbol false o.symbol) (b.get [])], w') := by
  obtain ⟨o', ho', ha⟩ := getComponents_alive hg
  rw [ho] at ho'; cases ho'
  have hs := getComponents_steady (E := E) t c none w
  rw [hg] at hs
  obtain ⟨oh', hh', eh⟩ := hs.get hh
  have hha' : oh'.alive = true := (congrArg (·.2.2.2.2.2.2.2.2) eh).trans hha
  rw [getComponents_eq ho ha] at hg
  unfold listTensor
  refine PyM.then_ok (getObj_ok ho ha) ?_
  refine PyM.then_ok (a := b) (w' := w') ?_ ?_
  · unfold shownComponents
    refine PyM.then_ok hg (PyM.then_ok (w' := w') rfl ?_)
    refine PyM.then_ok (a := b) (w' := w') ?_ rfl
    rfl
  refine PyM.then_ok (getObj_ok hh' hha') ?_
  refine PyM.then_ok (a := [(b.get [], [symbolText T.symbol false o.symbol])]) (w' := w') ?_ ?_
  · unfold listGroups
    rw [if_pos (by rw [hr]; rfl)]
    refine PyM.then_ok (a := symbolText T.symbol false o.symbol) (w' := w') ?_ rfl
    rw [PyM.lift_apply, Option.getD_none, hr, eqSymbol_ok T opt o [] letters hl (by simp) (Nat.zero_le _)
      (Nat.zero_le _), hx]
    simp [indexed]
  · rw [hx]; rfl

/-- The zero scalar of the session is listed. -/
example : (listTensor codeEngine codeTypeset { latex := false } 4 none none none none displayWorld).1 =
    .ok [.line ['S', ':'], .equation "s".toList 0] := by
  decide +kernel

/-- Rational numbers with sympy's `oo` and `nan`; they are not a ring. -/
inductive Spec.Extended
  | num (x : ℚ)
  | infinity
  | nan
  deriving DecidableEq

instance : Zero Extended := ⟨.num 0⟩

/-- `oo - oo` is `nan`. -/
instance : Sub Extended := ⟨fun a b => match a, b with
  | .num x, .num y => .num (x - y)
  | .infinity, .num _ => .infinity
  | _, _ => .nan⟩

instance : Add Extended := ⟨fun a b => match a, b with
  | .num x, .num y => .num (x + y)
  | .nan, _ => .nan
  | _, .nan => .nan
  | _, _ => .infinity⟩

/-- C62 is false of components that are not numbers, like the `oo` and `zoo` that `replace` may produce: since
`oo - oo` is not zero, a second infinite component is a new entry of the dictionary with an old key, and the first
one is lost. -/
theorem C62_infinite_false : groupEntries (fun _ => Extended.infinity) (fun I => (false, I)) (fun I => (true, I))
    (tuples 2 1) = [(.infinity, [(false, [1])])] := by
  decide

/-! ## C63: line breaking -/

/-- **C63** However many entries there are on a line, breaking a group into lines keeps every entry, once and in
order, and shows the value after the last one. -/
theorem C63_lines {num : Nat} (hn : 0 < num) (value : List Char) (entries : List (List Char)) (he : entries ≠ []) :
    Broken num entries value (groupText num value entries) := groupText_broken hn value entries he

/-- C63: five entries on lines of two. -/
example : groupText 2 ['1'] [['a'], ['b'], ['c'], ['d'], ['e']] =
    "a = b= \\\\[2pt]c = d= \\\\[2pt]e &= 1".toList := by decide

/-- `set_list_per_line` accepts all numbers but the negative ones, and nothing changes when it refuses. -/
theorem C63_setting (number : Option (Arg Int)) (opt : Options) :
    ((setListPerLine number opt).1 = .ok () ↔ number ≠ some .other ∧ ∀ n, number = some (.val n) → 0 ≤ n) ∧
      (∀ e, (setListPerLine number opt).1 = .error e → (setListPerLine number opt).2 = opt) ∧
      ∀ n, number = some (.val n) → 0 ≤ n → (setListPerLine number opt).2 = { opt with perLine := n } := by
  rcases number with _ | (n | _)
  · simp [setListPerLine]
  · by_cases h : n < 0
    · simp [setListPerLine, h]
    · simp [setListPerLine, h]; omega
  · simp [setListPerLine]

/-- C63 is false of the number zero, which `set_list_per_line` accepts: `list` then raises `ZeroDivisionError`
for every tensor with a non-zero component. -/
theorem C63_false [CommRing K] [DecidableEq K] (E : Engine K) (T : Typeset K) (opt : Options)
    {w w' : World K} {t : Id'} {c : Option Id'} {ix : Option (List Int)} {b : Arr K} {o oh oc : Obj K}
    (hg : getComponents E t c ix w = (.ok b, w')) (ho : w.objs[t]? = some o) (hr : 0 < o.indices.length)
    (hh : w.objs[o.coords]? = some oh) (hha : oh.alive = true)
    (hc : w.objs[c.getD o.coords]? = some oc) (hca : oc.alive = true)
    (hne : ∃ I ∈ tuples oh.syms.length o.indices.length, b.get I ≠ 0)
    {letters : List Sym} (hl : opt.letters = .many letters) (hx : opt.latex = true) :
    (setListPerLine (some (.val 0)) opt).1 = .ok () ∧
    listTensor E T (setListPerLine (some (.val 0)) opt).2 t c ix none none w = (.error .zeroDivisionError, w') := by
  refine ⟨rfl, ?_⟩
  set opt' : Options := (setListPerLine (some (.val 0)) opt).2
  have ho' : opt' = { opt with perLine := 0 } := rfl
  obtain ⟨o', hoo, ha⟩ := getComponents_alive hg
  rw [ho] at hoo; cases hoo
  have hs := getComponents_steady (E := E) t c ix w
  rw [hg] at hs
  obtain ⟨oh', hh', eh⟩ := hs.get hh
  obtain ⟨oc', hc', ec⟩ := hs.get hc
  have hsy : oh'.syms = oh.syms := congrArg (·.2.2.2.2.2.2.1) eh
  have hha' : oh'.alive = true := (congrArg (·.2.2.2.2.2.2.2.2) eh).trans hha
  have hca' : oc'.alive = true := (congrArg (·.2.2.2.2.2.2.2.2) ec).trans hca
  rw [getComponents_eq ho ha] at hg
  unfold listTensor
  refine PyM.then_ok (getObj_ok ho ha) ?_
  refine PyM.then_ok (a := b) (w' := w') ?_ ?_
  · unfold shownComponents
    refine PyM.then_ok hg (PyM.then_ok (w' := w') rfl ?_)
    refine PyM.then_ok (a := b) (w' := w') ?_ rfl
    rfl
  refine PyM.then_ok (getObj_ok hh' hha') ?_
  unfold listGroups
  obtain ⟨I, hI, hI0⟩ := hne
  rw [tuples_eq_allIdx] at hI
  rw [if_neg (by omega), hsy, if_neg (by
    intro h
    exact hI0 (of_decide_eq_true (List.all_eq_true.1 h I hI)))]
  refine (PyM.bind_apply _ _ _).trans ?_
  rw [PyM.bind_apply, PyM.lift_apply, eqSymbol_ok T opt' o [] letters hl (by simp) (Nat.zero_le _) (Nat.zero_le _)]
  dsimp only
  rw [PyM.bind_apply, getObj_ok hc' hca']
  dsimp only
  rw [PyM.pure_apply]
  dsimp only
  have : opt'.latex = true := hx
  rw [this, if_pos rfl, PyM.lift_apply]
  unfold listLatex
  rw [if_neg ?_, if_pos (show opt'.perLine = 0 from rfl)]
  intro h
  have : ∀ (P : List (List Nat)) (d : Dict K (List (List Char))) (plus minus : List Nat → List Char),
      (d ≠ [] ∨ ∃ J ∈ P, b.get J ≠ 0) → P.foldl (fun groups I => if b.get I ≠ 0 then
        addEntry (b.get I) (plus I) (minus I) groups else groups) d ≠ [] := by
    intro P
    induction P with
    | nil =>
      rintro d plus minus (h | ⟨J, h, -⟩)
      · exact h
      · cases h
    | cons J P ih =>
      intro d plus minus h
      rw [List.foldl_cons]
      apply ih
      by_cases hJ : b.get J = 0
      · rw [if_neg (not_not.2 hJ)]
        refine h.imp_right ?_
        rintro ⟨L, hL, hL0⟩
        rcases List.mem_cons.1 hL with rfl | hL
        · exact absurd hJ hL0
        · exact ⟨L, hL, hL0⟩
      · rw [if_pos hJ]
        left
        unfold addEntry
        dsimp only
        split_ifs with h1
        · rintro e
          rw [List.map_eq_nil_iff] at e
          rw [e] at h1
          cases h1
        · cases d with
          | nil => simp [Dict.set]
          | cons p d =>
            rw [List.map_cons, Dict.set]
            split_ifs <;> simp
  exact this _ [] _ _ (Or.inr ⟨I, hI, hI0⟩) h

/-- C63: the antisymmetric tensor of the session cannot be listed with zero entries per line. -/
example : (listTensor codeEngine codeTypeset { latex := true, perLine := 0 } 3 none none none none displayWorld).1 =
    .error .zeroDivisionError := by
  decide +kernel

/-! ## C64: index letters -/

/-- What `set_index_letters` does: it accepts three words and any string with names; a refused one changes
nothing. -/
theorem C64_setting (ranges : List Char → Py Letters) (letters : Option (Arg (List Char))) (opt : Options) {e : PyErr}
    (h : (setIndexLetters ranges letters opt).1 = .error e) : (setIndexLetters ranges letters opt).2 = opt := by
  rcases letters with _ | (s | _)
  · rfl
  · unfold setIndexLetters at h ⊢
    dsimp only at h ⊢
    split_ifs at h ⊢
    cases hs : sympySymbols ranges s with
    | error e => rfl
    | ok l => rw [hs] at h; cases h
  · rfl

/-- The letters after `set_index_letters(s)`. -/
theorem letters_set {ranges : List Char → Py Letters} {s : List Char} {opt opt' : Options}
    (h : setIndexLetters ranges (some (.val s)) opt = (.ok (), opt')) (hs : ∀ c ∈ s, c ≠ ':' ∧ c ≠ '\\')
    (hw : s.map Char.toLower ∉ ["automatic".toList, "greek".toList, "english".toList]) :
    opt'.letters = if (strip s).getLast? ≠ some ',' ∧ (namesIn s).length = 1 then
      .one (String.ofList ((namesIn s).headD [])) else .many ((namesIn s).map String.ofList) := by
  unfold setIndexLetters at h
  dsimp only at h
  rw [if_neg (fun e => hw (by simp [e])), if_neg (fun e => hw (by simp [e])), if_neg (fun e => hw (by simp [e]))] at h
  cases hl : sympySymbols ranges s with
  | error e => rw [hl] at h; cases h
  | ok l =>
    rw [hl] at h
    cases h
    exact sympySymbols_names hs hl

/-- What `show` displays: the components, under the symbol with one letter per index. -/
theorem show_ok [CommRing K] (E : Engine K) (T : Typeset K) (opt : Options)
    {w w' : World K} {t : Id'} {c : Option Id'} {ix : Option (List Int)} {b : Arr K} {o oc : Obj K}
    (hg : getComponents E t c ix w = (.ok b, w')) (ho : w.objs[t]? = some o)
    (hc : w.objs[c.getD o.coords]? = some oc) (hca : oc.alive = true)
    {letters : List Sym} (hl : opt.letters = .many letters) (hr : o.indices.length ≤ letters.length) :
    ∃ a, a.data = b.data ∧ showTensor E T opt t c ix none none w = (.ok [.array o.name.toList
        (symbolText T.symbol opt.latex o.symbol ++
          indexed T.symbol opt.latex (ix.getD o.indices) (letters.take o.indices.length)) oc.syms a], w') := by
  obtain ⟨o', hoo, ha⟩ := getComponents_alive hg
  rw [ho] at hoo; cases hoo
  have hs := getComponents_steady (E := E) t c ix w
  rw [hg] at hs
  obtain ⟨oc', hc', ec⟩ := hs.get hc
  have hsyc : oc'.syms = oc.syms := congrArg (·.2.2.2.2.2.2.1) ec
  have hca' : oc'.alive = true := (congrArg (·.2.2.2.2.2.2.2.2) ec).trans hca
  rw [getComponents_eq ho ha] at hg
  have hval := hg
  unfold getRepresentation at hval
  obtain ⟨bb, w1, k1, hval⟩ := bind_ok hval
  have hix : (ix.getD o.indices).length = o.indices.length ∧ ∀ x ∈ ix.getD o.indices, x = 1 ∨ x = -1 := by
    rw [isCoordinates_apply] at k1
    cases k1
    split_ifs at hval with h
    · cases hval
    · obtain ⟨o2, w2, k2, hval⟩ := bind_ok hval
      obtain ⟨rfl, k3, -⟩ := getObj_inv k2
      rw [ho] at k3; cases k3
      obtain ⟨u, w3, k4, -⟩ := bind_ok hval
      rw [PyM.lift_apply] at k4
      exact validateIndices_ok (congrArg Prod.fst k4)
  refine ⟨match b.shape with
    | [n] => ⟨[n, 1], b.data⟩
    | _ => b, by split <;> rfl, ?_⟩
  unfold showTensor
  refine PyM.then_ok (getObj_ok ho ha) ?_
  refine PyM.then_ok (a := match b.shape with
    | [n] => ⟨[n, 1], b.data⟩
    | _ => b) (w' := w') ?_ ?_
  · unfold shownComponents
    refine PyM.then_ok hg (PyM.then_ok (w' := w') rfl ?_)
    refine PyM.then_ok (w' := w') rfl ?_
    rcases b with ⟨_ | ⟨n, _ | ⟨m, s⟩⟩, d⟩ <;> rfl
  refine PyM.then_ok (a := symbolText T.symbol opt.latex o.symbol ++
      indexed T.symbol opt.latex (ix.getD o.indices) (letters.take o.indices.length)) (w' := w') ?_ ?_
  · rw [PyM.lift_apply, eqSymbol_ok T opt o _ letters hl hix.2 hix.1.le (by omega), hix.1]
  · refine PyM.then_ok (getObj_ok hc' hca') ?_
    rw [hsyc]; rfl

/-- **C64**, what is true: after `set_index_letters(s)` has succeeded for a string with at least two names (or
with a comma at the end), `show` works for every object with at most as many indices as there are names, whenever
its components can be had, and uses the names in their order as indices.  (`list` works too, by `C62_list`; it only
needs that the letters are not a single symbol.)  Missing: strings with one name, see `C64_false`; the ranges and
escapes of `sym.symbols`. -/
theorem C64_index_letters_partial [CommRing K] (E : Engine K) (T : Typeset K) (ranges : List Char → Py Letters)
    {opt opt' : Options} {s : List Char} (h : setIndexLetters ranges (some (.val s)) opt = (.ok (), opt'))
    (hs : ∀ c ∈ s, c ≠ ':' ∧ c ≠ '\\')
    (hw : s.map Char.toLower ∉ ["automatic".toList, "greek".toList, "english".toList])
    (h2 : 2 ≤ (namesIn s).length ∨ (strip s).getLast? = some ',')
    {w w' : World K} {t : Id'} {c : Option Id'} {ix : Option (List Int)} {b : Arr K} {o oc : Obj K}
    (hg : getComponents E t c ix w = (.ok b, w')) (ho : w.objs[t]? = some o)
    (hc : w.objs[c.getD o.coords]? = some oc) (hca : oc.alive = true) (hr : o.indices.length ≤ (namesIn s).length) :
    opt'.letters = .many ((namesIn s).map String.ofList) ∧
    ∃ a, a.data = b.data ∧ showTensor E T opt' t c ix none none w = (.ok [.array o.name.toList
        (symbolText T.symbol opt'.latex o.symbol ++
          indexed T.symbol opt'.latex (ix.getD o.indices) (((namesIn s).take o.indices.length).map String.ofList))
        oc.syms a], w') := by
  have hl := letters_set h hs hw
  rw [if_neg (by
    rintro ⟨p, q⟩
    rcases h2 with h2 | h2
    · omega
    · exact p h2)] at hl
  refine ⟨hl, ?_⟩
  rw [List.map_take]
  exact show_ok E T opt' hg ho hc hca hl (by simpa using hr)

/-- C64 is false of strings with one name: `set_index_letters` accepts them, and then `show` raises `TypeError` for
every object, even for a scalar. -/
theorem C64_false [CommRing K] (E : Engine K) (T : Typeset K) (ranges : List Char → Py Letters)
    {opt opt' : Options} {s : List Char} (h : setIndexLetters ranges (some (.val s)) opt = (.ok (), opt'))
    (hs : ∀ c ∈ s, c ≠ ':' ∧ c ≠ '\\')
    (hw : s.map Char.toLower ∉ ["automatic".toList, "greek".toList, "english".toList])
    (h1 : (namesIn s).length = 1) (h2 : (strip s).getLast? ≠ some ',')
    {w w' : World K} {t : Id'} {c : Option Id'} {ix : Option (List Int)} {b : Arr K}
    (hg : getComponents E t c ix w = (.ok b, w')) :
    showTensor E T opt' t c ix none none w = (.error .typeError, w') := by
  have hl := letters_set h hs hw
  rw [if_pos ⟨h2, h1⟩] at hl
  obtain ⟨o, ho, ha⟩ := getComponents_alive hg
  rw [getComponents_eq ho ha] at hg
  unfold showTensor
  refine PyM.then_ok (getObj_ok ho ha) ?_
  refine PyM.then_ok (a := match b.shape with
    | [n] => ⟨[n, 1], b.data⟩
    | _ => b) (w' := w') ?_ ?_
  · unfold shownComponents
    refine PyM.then_ok hg (PyM.then_ok (w' := w') rfl ?_)
    refine PyM.then_ok (w' := w') rfl ?_
    rcases b with ⟨_ | ⟨n, _ | ⟨m, s⟩⟩, d⟩ <;> rfl
  refine (PyM.bind_apply _ _ _).trans ?_
  rw [PyM.lift_apply]
  unfold eqSymbol
  rw [hl]

/-- C64: the string `i`, and two that are fine. -/
example : (setIndexLetters (fun _ => .ok (.many [])) (some (.val ['i'])) {}).2.letters = .one "i" ∧
    (setIndexLetters (fun _ => .ok (.many [])) (some (.val "i j,k".toList)) {}).2.letters = .many ["i", "j", "k"] ∧
    (setIndexLetters (fun _ => .ok (.many [])) (some (.val "i,".toList)) {}).2.letters = .many ["i"] := by
  decide +kernel

/-- C64: the antisymmetric tensor is shown with these letters. -/
example : (showTensor codeEngine codeTypeset (setIndexLetters (fun _ => .ok (.many [])) (some (.val "i j,k".toList))
      { latex := false }).2 3 none none none none displayWorld).1 =
    .ok [.array ['F'] "F_i_j".toList ["x", "y"] ⟨[2, 2], [0, 1, -1, 0]⟩] := by
  decide +kernel

/-! ## C65: line element and volume element -/

/-- `line_element` and `volume_element` start from what `get_components` would give for lower indices. -/
theorem lowerComponents_eq [CommRing K] (E : Engine K) {w : World K} {m : Id'} {c : Option Id'} {o oc : Obj K}
    (ho : w.objs[m]? = some o) (ha : o.alive = true) (hk : o.kind = .metric) (h2 : o.indices.length = 2)
    (hc : w.objs[c.getD o.coords]? = some oc) (hkc : oc.kind = .coordinates) :
    lowerComponents E m c w = ((getComponents E m c (some [-1, -1]) w).1.map fun g => (c.getD o.coords, g),
      (getComponents E m c (some [-1, -1]) w).2) := by
  have hok : c.elim (pure true : PyM K Bool) isCoordinates w = (.ok true, w) := by
    cases c with
    | none => rfl
    | some c =>
      rw [Option.elim_some]
      rw [isCoordinates_apply]
      rw [Option.getD_some] at hc
      rw [hc]
      simp [hkc]
  rw [getComponents_eq ho ha]
  unfold lowerComponents getRepresentation
  rw [PyM.bind_apply, hok]
  dsimp only
  rw [PyM.bind_apply, isCoordinates_apply, hc]
  simp only [Option.any_some, hkc, beq_self_eq_true, Bool.not_true, Bool.false_eq_true, if_false]
  rw [PyM.bind_apply, getObj_ok ho ha]
  dsimp only
  rw [PyM.bind_apply (getObj m), getObj_ok ho ha]
  dsimp only
  rw [PyM.bind_apply (PyM.lift _), PyM.lift_apply]
  have hv : validateIndices (([-1, -1] : List Int)) o.indices = .ok () := validateIndices_src ⟨h2.symm, by simp⟩
  rw [Option.getD_some, hv]
  dsimp only
  have hchk : checkRepresentation E m (c.getD o.coords) [-1, -1] w = metricCheck m (c.getD o.coords) w := by
    unfold checkRepresentation
    rw [PyM.bind_apply, getObj_ok ho ha]
    dsimp only
    rw [hk]
  have hm : metricCheck m (c.getD o.coords) w = (.ok (o.comps.has (c.getD o.coords)), w) := by
    unfold metricCheck
    rw [PyM.bind_apply, getObj_ok ho ha]
    rfl
  have htr : ∀ b, PyM.onlyIf b (transformCoordinates E m (c.getD o.coords) [-1, -1]) w =
      PyM.onlyIf b (metricTransform E m (c.getD o.coords) [-1, -1]) w := by
    intro b
    cases b with
    | false => rfl
    | true =>
      unfold PyM.onlyIf
      rw [if_pos rfl, if_pos rfl]
      unfold transformCoordinates
      rw [PyM.bind_apply, getObj_ok ho ha]
      dsimp only
      rw [hk]
  rw [PyM.bind_apply, hm, PyM.bind_apply (checkRepresentation _ _ _ _), hchk, hm]
  dsimp only
  rw [PyM.bind_apply, PyM.bind_apply, htr]
  rcases PyM.onlyIf (!o.comps.has (c.getD o.coords)) (metricTransform E m (c.getD o.coords) [-1, -1]) w with ⟨r, w1⟩
  cases r with
  | error e => rfl
  | ok u =>
    dsimp only
    rw [PyM.bind_apply]
    rcases readComps m (c.getD o.coords) [-1, -1] w1 with ⟨r, w2⟩
    cases r <;> rfl

/-- **C65** Whenever the lower components `g` of a metric can be had with `get_components(coords, (-1, -1))`, the line
element in these coordinates is the sum of all `g i j * dx i * dx j`, with and without LaTeX, and the volume element
is the determinant of `g`, with the same effects on the session. -/
theorem C65_elements [CommRing K] (E : Engine K) (hE : EngineOK E) {w w' : World K} {m : Id'} {c : Option Id'}
    {g : Arr K} {o oc : Obj K} {n : Nat} (hg : getComponents E m c (some [-1, -1]) w = (.ok g, w'))
    (ho : w.objs[m]? = some o) (hk : o.kind = .metric)
    (hc : w.objs[c.getD o.coords]? = some oc) (hca : oc.alive = true) (hn : oc.syms.length = n)
    (hs : g.shape = [n, n]) (hsym : ∀ i j, i < n → j < n → entry g i j = entry g j i)
    (hD : ∀ a : Arr K, a.shape = [n, n] → E.det a = determinant n a) (var : Sym → K)
    {A : Type} [Ring A] [Algebra K A] (letter : Sym → A) :
    lineElement E var m c w = (.ok (quadratic n (entry g) fun i => var ("d" ++ oc.syms.getD i "")), w') ∧
    (oc.syms.Nodup → lineElementLatex E (algebraMap K A) letter m c w =
      (.ok (quadraticWritten n (entry g) (letter "d") fun i => letter (oc.syms.getD i "")), w')) ∧
    volumeElement E m c w = (.ok (determinant n g), w') := by
  obtain ⟨o', hoo, ha⟩ := getComponents_alive hg
  rw [ho] at hoo; cases hoo
  have hst := getComponents_steady (E := E) m c (some [-1, -1]) w
  have hgg := hg
  rw [getComponents_eq ho ha] at hgg
  unfold getRepresentation at hgg
  obtain ⟨bb, w1, k1, hval⟩ := bind_ok hgg
  rw [isCoordinates_apply, hc] at k1
  cases k1
  simp only [Option.any_some] at hval
  split_ifs at hval with hkc
  · cases hval
  have hkc' : oc.kind = .coordinates := by
    by_contra h
    exact hkc (by simp [h])
  have h2 : o.indices.length = 2 := by
    obtain ⟨o2, w2, k2, hval⟩ := bind_ok hval
    obtain ⟨rfl, k3, -⟩ := getObj_inv k2
    rw [ho] at k3; cases k3
    obtain ⟨u, w3, k4, -⟩ := bind_ok hval
    rw [PyM.lift_apply] at k4
    have k5 : validateIndices ((some ([-1, -1] : List Int)).getD o.indices) o.indices = .ok () :=
      congrArg Prod.fst k4
    exact (validateIndices_ok k5).1.symm
  have hlow := lowerComponents_eq E ho ha hk h2 hc hkc'
  rw [hg] at hlow hst
  obtain ⟨oc', hc', ec⟩ := hst.get hc
  have hsyc : oc'.syms = oc.syms := congrArg (·.2.2.2.2.2.2.1) ec
  have hca' : oc'.alive = true := (congrArg (·.2.2.2.2.2.2.2.2) ec).trans hca
  refine ⟨?_, fun hnd => ?_, ?_⟩
  · unfold lineElement
    refine PyM.then_ok hlow (PyM.then_ok (getObj_ok hc' hca') ?_)
    rw [hsyc, lineSum_eq var _ hs]
    rfl
  · unfold lineElementLatex
    refine PyM.then_ok hlow (PyM.then_ok (getObj_ok hc' hca') ?_)
    rw [hsyc, lineSumLatex_eq letter _ hs hn hnd hsym]
    rfl
  · unfold volumeElement
    refine PyM.then_ok hlow ?_
    rw [hE.simp_eq, hD g hs]
    rfl

theorem requests_steady [CommRing K] (E : Engine K) : ∀ (hist : List (Id' × Option Id' × Option (List Int)))
    (w : World K), Frame w (requests E hist w)
  | [], w => Frame.refl w
  | (i, c, ix) :: rest, w => (getComponents_steady i c ix w).trans (requests_steady E rest _)

/-- **C65** for a metric that has been declared, with lower or with upper indices, in the coordinates it was declared
in and after any requests: line element and volume element belong to its lower components, which are the declared
ones or the inverse of the declared ones. -/
theorem C65_declared_metric [CommRing K] [DecidableEq K] (E : Engine K) (hE : EngineOK E) {w w' : World K}
    {name symbol : Arg String} {a : Arr K} {m c : Id'} {ix : IndicesArg} (ha : a.WF)
    (h : newMetric E name (.val a) c ix symbol w = (.ok m, w')) {oc : Obj K} (hoc : w'.objs[c]? = some oc)
    (hca : oc.alive = true) (hD : ∀ n, ∀ a : Arr K, a.shape = [n, n] → E.det a = determinant n a)
    (hist : List (Id' × Option Id' × Option (List Int))) (c' : Option Id') (hc : c' = none ∨ c' = some c)
    (var : Sym → K) {A : Type} [Ring A] [Algebra K A] (letter : Sym → A) :
    ∃ n g, a.shape = [n, n] ∧ ((ix = .tuple [-1, -1] ∧ g = a) ∨
        (ix = .tuple [1, 1] ∧ Inverse n (entry g) (entry a))) ∧
      lineElement E var m c' (requests E hist w') =
        (.ok (quadratic n (entry g) fun i => var ("d" ++ oc.syms.getD i "")), requests E hist w') ∧
      (oc.syms.Nodup → lineElementLatex E (algebraMap K A) letter m c' (requests E hist w') =
        (.ok (quadraticWritten n (entry g) (letter "d") fun i => letter (oc.syms.getD i "")), requests E hist w')) ∧
      volumeElement E m c' (requests E hist w') = (.ok (determinant n g), requests E hist w') := by
  obtain ⟨n, g, gi, e, h1, h2, -, -, -, h3, h4, -, h5, h6, -, h7⟩ :=
    C11_metric_representations E hE ha h hist c' hc
  obtain ⟨oc0, b, k1, k2, k3, -, -, -, k4⟩ := mown_new h
  obtain ⟨⟨oc1, q1, q2⟩, om, q3, q4, q5, q6, -⟩ := mown_requests (E := E) hist k4
  have hlen : oc.syms.length = n := by
    obtain ⟨oc2, k5, k6⟩ := k4.chart
    rcases newMetric_cases E name a c ix symbol w with ⟨e, he⟩ | ⟨oc', p1, p2, p3, p4, p5, p6, p7⟩
    · rw [h] at he; cases he
    · rcases p7 with ⟨e, -, p7⟩ | ⟨b, -, p7⟩
      · rw [h] at p7; cases p7
      · rw [h] at p7
        cases p7
        have := hoc.symm.trans (getElem?_append_old p1)
        cases this
        rw [p3] at h1
        injection h1
  obtain ⟨oc3, f1, f2⟩ := (requests_steady E hist w').get hoc
  have hsy : oc3.syms = oc.syms := congrArg (·.2.2.2.2.2.2.1) f2
  have hal : oc3.alive = true := (congrArg (·.2.2.2.2.2.2.2.2) f2).trans hca
  have hco : om.coords = c := congrArg Prod.fst q6
  have := C65_elements E hE h2 q3 q5 (by
      rw [hco, show c'.getD c = c by rcases hc with rfl | rfl <;> rfl]
      exact f1) hal (by rw [hsy]; exact hlen) h3 h5 (hD n) var letter
  rw [hsy] at this
  refine ⟨n, g, h1, ?_, this⟩
  rcases h7 with ⟨h7, h8⟩ | ⟨h7, h8⟩
  · exact Or.inl ⟨h7, h8⟩
  · exact Or.inr ⟨h7, h8 ▸ h6⟩

/-- C65: line and volume element of the metric of the session, with 10 for `dx` and 1000 for `dy`. -/
example : (lineElement codeEngine (fun s => if s = "dx" then 10 else 1000) 1 none displayWorld).1 = .ok 1000100 ∧
    (volumeElement codeEngine 1 (some 0) displayWorld).1 = .ok 1 := by
  decide +kernel

theorem codeEngine_ok : EngineOK codeEngine where
  simp_eq _ := rfl
  inv_ok n a b hs hb := by
    unfold codeEngine at hb
    dsimp only at hb
    split_ifs at hb with h h'
    · rw [hs] at h
      obtain ⟨h1, h2⟩ := h
      have hn : n = 2 := by simpa using h1
      subst hn
      cases hb
      refine ⟨rfl, rfl, fun i j hi hj => ?_⟩
      set d := a.get [0, 0] * a.get [1, 1] - a.get [0, 1] * a.get [1, 0] with hd
      set b : Arr ℚ := ⟨[2, 2], [a.get [1, 1] / d, -a.get [0, 1] / d, -a.get [1, 0] / d, a.get [0, 0] / d]⟩
      have b1 : b.get [0, 0] = a.get [1, 1] / d := rfl
      have b2 : b.get [0, 1] = -a.get [0, 1] / d := rfl
      have b3 : b.get [1, 0] = -a.get [1, 0] / d := rfl
      have b4 : b.get [1, 1] = a.get [0, 0] / d := rfl
      have hi' : i = 0 ∨ i = 1 := by omega
      have hj' : j = 0 ∨ j = 1 := by omega
      rcases hi' with rfl | rfl <;> rcases hj' with rfl | rfl <;>
        simp only [matMul, Finset.sum_range_succ, Finset.sum_range_zero, zero_add, delta, b1, b2, b3, b4] <;>
        refine ⟨?_, ?_⟩ <;> field_simp <;> simp <;> try linarith [hd]
    · rw [hs] at h'
      obtain ⟨h1, h2⟩ := h'
      have hn : n = 1 := by simpa using h1
      subst hn
      cases hb
      refine ⟨rfl, rfl, fun i j hi hj => ?_⟩
      have : i = 0 := by omega
      have : j = 0 := by omega
      subst i j
      have hg : (⟨[1, 1], [(a.get [0, 0])⁻¹]⟩ : Arr ℚ).get [0, 0] = (a.get [0, 0])⁻¹ := rfl
      simp [matMul, delta, hg, h2]

/-- The engine of the session, with the determinants of all matrices. -/
noncomputable def Spec.detEngine : Engine ℚ :=
  { codeEngine with det := fun a => determinant (a.shape.getD 0 0) a }

/-- C65: this engine satisfies the hypotheses. -/
example : EngineOK detEngine ∧ ∀ n, ∀ a : Arr ℚ, a.shape = [n, n] → detEngine.det a = determinant n a := by
  refine ⟨⟨fun _ => rfl, codeEngine_ok.inv_ok⟩, fun n a h => ?_⟩
  show determinant (a.shape.getD 0 0) a = _
  rw [h]
  rfl

/-- **C65** is false in new coordinates for a metric declared with upper indices (the default of the constructor):
`line_element` and `volume_element` raise `KeyError` there. -/
theorem C65_false [CommRing K] (E : Engine K) (hE : EngineOK E) (hT : EngineTotal E) {w : World K} {m c c' : Id'}
    {b : Arr K} {o : Obj K} {n : Nat} (hn : 0 < n) {old new : List Sym}
    {rules : List (Option (Sym × K))} (hk : Known E w .metric m c [-1, -1] b) (hu : Unseen w m c')
    (hb : b.shape = [n, n]) (ho : w.objs[m]? = some o) (hix : o.indices = [1, 1])
    (hch : Charts w c c' old new (some rules))
    (hold : old.length = n) (hnew : new.length = n) (hg : GoodRules rules) (hj : cachedJacobian w c c' = none)
    {Jinv : Nat → Nat → K} (hI : Inverse n (chartJacobian E old new rules) Jinv) (var : Sym → K) :
    ∃ w', lineElement E var m (some c') w = (.error .keyError, w') ∧
      volumeElement E m (some c') w = (.error .keyError, w') := by
  obtain ⟨w', h1, -⟩ := C12_false E hE hT hn hk hu hb ho (by rw [hix]; rfl) (by rw [hix]; decide) hch hold hnew hg hj hI
  obtain ⟨o', k1, k2, k3⟩ := hk.object
  rw [ho] at k1; cases k1
  obtain ⟨o', j1, j2⟩ := getComponents_alive hk.returns
  rw [ho] at j1; cases j1
  obtain ⟨oc, c1, c2, -, -⟩ := hch.2
  have hlow := lowerComponents_eq E (c := some c') ho j2 k2 (by rw [hix]; rfl) c1 c2
  rw [h1] at hlow
  refine ⟨w', ?_, ?_⟩
  · unfold lineElement
    rw [PyM.bind_apply, hlow]
    rfl
  · unfold volumeElement
    rw [PyM.bind_apply, hlow]
    rfl

/-! ## C71: info -/

theorem commaText_eq (l : List String) : commaText l = [',', ' '].intercalate (l.map String.toList) := by
  unfold commaText
  exact joinText_eq _ _

theorem readNames_ok {w : World K} : ∀ (ts : List Id'), (∀ t ∈ ts, InUse w t) →
    ∃ names, readNames ts w = (.ok names, w) ∧ List.Forall₂ (fun i name => Named w name i) ts names
  | [], _ => ⟨[], rfl, .nil⟩
  | t :: ts, h => by
    obtain ⟨o, h1, h2⟩ := h t (List.mem_cons_self ..)
    obtain ⟨names, h3, h4⟩ := readNames_ok ts fun i hi => h i (List.mem_cons_of_mem _ hi)
    refine ⟨o.name :: names, ?_, .cons ⟨o, h1, rfl⟩ h4⟩
    unfold readNames
    exact PyM.then_ok (getObj_ok h1 h2) (PyM.then_ok h3 rfl)

theorem namesOf_listed {w : World K} (hs : Sound w) (cond : Obj K → Bool) :
    ∃ users, Registered w (fun p => cond p = true) users ∧ Listed w users (commaText (namesOf w cond)) := by
  refine ⟨w.instances.filter fun i => w.objs[i]?.any fun o => decide (o.kind ≠ .coordinates) && cond o,
    ⟨List.filter_sublist, fun i => ?_⟩, namesOf w cond, ?_, commaText_eq _⟩
  · rw [List.mem_filter]
    cases h : w.objs[i]? <;> simp
  · unfold namesOf
    have : ∀ l : List Id', List.Forall₂ (fun i name => Named w name i)
        (l.filter fun i => w.objs[i]?.any fun o => decide (o.kind ≠ .coordinates) && cond o)
        (l.filterMap fun i => match w.objs[i]? with
          | some o => if o.kind ≠ .coordinates ∧ cond o then some o.name else none
          | none => none) := by
      intro l
      induction l with
      | nil => exact .nil
      | cons i l ih =>
        rw [List.filter_cons, List.filterMap_cons]
        cases h : w.objs[i]? with
        | none => simpa using ih
        | some o =>
          by_cases hc : o.kind ≠ .coordinates ∧ cond o
          · simp only [Option.any_some, hc.1, hc.2, ne_eq, not_false_eq_true, decide_true, Bool.and_self, and_self,
              if_true]
            exact .cons ⟨o, h, rfl⟩ ih
          · have : (decide (o.kind ≠ .coordinates) && cond o) = false := by
              rw [Bool.eq_false_iff]
              intro e
              exact hc (by simpa using e)
            simp only [Option.any_some, this, hc, if_false, Bool.false_eq_true]
            exact ih
    exact this _

theorem className_title (k : Kind) : className k = classTitle k := by cases k <;> rfl

theorem type_shown {k : Kind} {l : Dict String (List Char)} {n : List Char} :
    List.lookup "Type" (("Name", n) :: ("Type", (className k).toList) :: l) = some (classTitle k).toList := by
  rw [← className_title]; rfl

/-- **C71** After any sequence of calls whose arguments were registered at the time of the call, `info` works for
every registered object, without any effect, and shows the objects it uses and exactly the objects that use it. -/
theorem C71_info_partial [CommRing K] [DecidableEq K] [Algebra ℚ K] (E : Engine K) (letters : List Sym)
    (calls : List (Call K)) (hp : Proper E letters calls fresh) (t : Id')
    (ht : t ∈ (history E letters calls fresh).instances) :
    ∃ o info, (history E letters calls fresh).objs[t]? = some o ∧
      getInfo t (history E letters calls fresh) = (.ok info, history E letters calls fresh) ∧
      Informs (history E letters calls fresh) t o info := by
  obtain ⟨hs, hd, -⟩ := C47_references_partial E letters calls hp
  generalize history E letters calls fresh = w at *
  obtain ⟨o, ho, ha⟩ := hs.inUse t ht
  have hne : w.instances ≠ [] := List.ne_nil_of_mem ht
  have href := hd t ht o ho
  by_cases hk : o.kind = .coordinates
  · obtain ⟨users, u1, u2⟩ := namesOf_listed hs fun p => p.coords == t
    have htr : ∃ tr, transInfo (o.trans.map (·.1)) w = (.ok tr, w) ∧ ((o.trans = [] ∧ tr = []) ∨
        (o.trans ≠ [] ∧ ∃ text, tr = [("Coordinate Transformations", text)] ∧ Listed w (o.trans.map (·.1)) text)) := by
      unfold transInfo
      by_cases h : o.trans = []
      · rw [h]; exact ⟨[], rfl, Or.inl ⟨rfl, rfl⟩⟩
      · rw [if_neg (by simpa using h)]
        obtain ⟨names, h1, h2⟩ := readNames_ok (w := w) (o.trans.map (·.1)) (by
          intro c hc
          obtain ⟨⟨c', r⟩, h3, rfl⟩ := List.mem_map.1 hc
          exact href _ (Or.inl ⟨hk, r, h3⟩))
        exact ⟨_, PyM.then_ok h1 rfl, Or.inr ⟨h, _, rfl, names, h2, commaText_eq _⟩⟩
    obtain ⟨tr, t1, t2⟩ := htr
    refine ⟨o, [("Name", o.name.toList), ("Type", (className o.kind).toList)] ++ tr ++
        [("Default Coordinates For", commaText (namesOf w fun p => p.coords == t))], ho, ?_, ?_⟩
    · unfold getInfo
      refine PyM.then_ok (getObj_ok ho ha) ?_
      refine PyM.then_ok (w' := w) (a := w) rfl ?_
      rw [hk]
      refine PyM.then_ok t1 ?_
      rw [if_neg hne]
      rfl
    · have hreg : Registered w (fun p => p.coords = t) users := ⟨u1.1, fun i => by rw [u1.2 i]; simp⟩
      refine ⟨rfl, type_shown, fun _ => ?_, fun h => absurd hk h, fun h => absurd (hk.symm.trans h) (by decide),
        fun h => absurd hk h⟩
      rcases t2 with ⟨t2, rfl⟩ | ⟨t2, text, rfl, t3⟩
      · exact ⟨fun _ => rfl, fun h => absurd t2 h, users, _, rfl, hreg, u2⟩
      · exact ⟨fun h => absurd h t2, fun _ => ⟨text, rfl, t3⟩, users, _, rfl, hreg, u2⟩
  · obtain ⟨oc, hc, hca⟩ := href o.coords (Or.inr ⟨hk, Or.inr (Or.inl rfl)⟩)
    obtain ⟨om, hm, hma⟩ := href o.metric (Or.inr ⟨hk, Or.inl rfl⟩)
    by_cases hkm : o.kind = .metric
    · obtain ⟨users, u1, u2⟩ := namesOf_listed hs fun p => p.metric == t
      refine ⟨o, [("Name", o.name.toList), ("Type", (className o.kind).toList),
        ("Default Coordinates", oc.name.toList),
        ("Tensors Using This Metric", commaText (namesOf w fun p => p.metric == t))], ho, ?_, ?_⟩
      · unfold getInfo
        refine PyM.then_ok (getObj_ok ho ha) ?_
        refine PyM.then_ok (w' := w) (a := w) rfl ?_
        rw [hkm]
        refine PyM.then_ok (getObj_ok hc hca) ?_
        rw [if_neg hne]
        rfl
      · exact ⟨rfl, type_shown, fun h => absurd h hk, fun _ => ⟨oc, hc, rfl⟩,
          fun _ => ⟨users, _, rfl, ⟨u1.1, fun i => by rw [u1.2 i]; simp⟩, u2⟩, fun _ h => absurd hkm h⟩
    · refine ⟨o, [("Name", o.name.toList), ("Type", (className o.kind).toList),
        ("Default Coordinates", oc.name.toList), ("Metric", om.name.toList)], ho, ?_, ?_⟩
      · unfold getInfo
        refine PyM.then_ok (getObj_ok ho ha) ?_
        refine PyM.then_ok (w' := w) (a := w) rfl ?_
        rcases o with ⟨_ | _ | _ | _ | _ | _ | _ | _⟩ <;> first
          | exact absurd rfl hk
          | exact absurd rfl hkm
          | exact PyM.then_ok (getObj_ok hc hca) (PyM.then_ok (getObj_ok hm hma) rfl)
      · exact ⟨rfl, type_shown, fun h => absurd h hk, fun _ => ⟨oc, hc, rfl⟩, fun h => absurd h hkm,
          fun _ _ => ⟨om, hm, rfl⟩⟩

/-- C71: a session meets the hypotheses. -/
example : Proper codeEngine [] codeCalls fresh ∧ (history codeEngine [] codeCalls fresh).instances = [0, 1, 2] := by
  refine ⟨⟨by decide +kernel, by decide +kernel, by decide +kernel, trivial⟩, by decide +kernel⟩

/-- **C71** is false without the proviso: a transformation to deleted coordinates is accepted, and then `info` raises
`AttributeError`. -/
theorem C71_false [CommRing K] [DecidableEq K] [Algebra ℚ K] (E : Engine K) (letters : List Sym) :
    ∃ (calls : List (Call K)) (t : Id'), t ∈ (history E letters calls fresh).instances ∧
      getInfo t (history E letters calls fresh) = (.error .attributeError, history E letters calls fresh) :=
  ⟨[.coordinates (.val "A") (.val [1]) ["x"] (.tuple [1]) (.val "x"),
    .coordinates (.val "B") (.val [1]) ["y"] (.tuple [1]) (.val "y"), .delete 1, .transformation 0 1 (some [])], 0,
    show 0 ∈ [0] by simp, rfl⟩

end PyOGRe
