import Verif.Model.Messages
import Verif.Props.Display
import Std.Data.String.ToInt

/-!
# The texts of `str` and `info`: C106, C107
-/

namespace PyOGRe
open Spec
variable {K : Type}

/-! ### Specification -/

/-- One line for each entry. -/
def Spec.sheet (entries : List (String × List Char)) : List Char :=
  entries.flatMap fun e => e.1.toList ++ ": ".toList ++ e.2 ++ " \n".toList

/-- Whole numbers and tuples of them as Python writes them: `()`, `(1,)`, `(1, -1)`. -/
def Spec.numeral (i : Int) : List Char := (toString i).toList

def Spec.tuple (l : List Int) : List Char :=
  "(".toList ++ [',', ' '].intercalate (l.map numeral) ++ (if l.length = 1 then ",)".toList else ")".toList)

/-- The entries that are shown for object `t` with attributes `o`, in this order. -/
def Spec.Entries (w : World K) (t : Id') (o : Obj K) (symbol : List Char) (entries : List (String × List Char)) : Prop :=
  ∃ rest, entries = [("Name", o.name.toList), ("Symbol", symbol), ("Type", (classTitle o.kind).toList),
    ("Rank", numeral o.indices.length)] ++ rest ∧
  (o.kind = .coordinates → ∃ users text, Registered w (fun p => p.coords = t) users ∧ Listed w users text ∧
    ((o.trans = [] ∧ rest = [("Default Indices", tuple o.indices), ("Default Coordinates For", text)]) ∨
      (o.trans ≠ [] ∧ ∃ text', Listed w (o.trans.map (·.1)) text' ∧ rest = [("Default Indices", tuple o.indices),
        ("Default Coordinates For", text), ("Coordinate Transformations", text')]))) ∧
  (o.kind = .metric → ∃ oc, w.objs[o.coords]? = some oc ∧ ∃ users text, Registered w (fun p => p.metric = t) users ∧
    Listed w users text ∧ rest = [("Default Coordinates", oc.name.toList), ("Default Indices", tuple o.indices),
      ("Tensors Using This Metric", text)]) ∧
  (o.kind ≠ .coordinates → o.kind ≠ .metric → ∃ oc om, w.objs[o.coords]? = some oc ∧ w.objs[o.metric]? = some om ∧
    rest = [("Metric", om.name.toList), ("Default Coordinates", oc.name.toList), ("Default Indices", tuple o.indices)])

/-- What `info` shows. -/
def Spec.page (opt : Options) (name : String) (entries : List (String × List Char)) : List (Out K) :=
  if opt.latex then
    [.markdown ("<div align=left style='font-size:".toList ++ numeral (opt.fontSize + 2) ++
      "pt; margin-bottom:12pt'> \n\n".toList ++ name.toList ++ ":\n\n </div>".toList ++
      "<div align=left style='font-size:".toList ++ numeral (opt.fontSize - 2) ++ "pt'> \n\n".toList ++
      "\n\n".toList.intercalate (entries.map fun e => "__".toList ++ e.1.toList ++ ":__ ".toList ++ e.2) ++
      "\n\n </div>".toList)]
  else .line (name.toList ++ ":".toList) :: entries.map fun e => .line (e.1.toList ++ ": ".toList ++ e.2)

/-! ### Texts -/

theorem tupleText_eq (l : List Int) : tupleText l = tuple l := by
  unfold tuple
  match l with
  | [] => rfl
  | [i] => simp [tupleText, intText, numeral, List.intercalate]
  | i :: j :: l =>
    rw [if_neg (by simp)]
    show '(' :: (joinText [',', ' '] _ ++ [')']) = _
    rw [joinText_eq]
    rfl

theorem numeral_char {i : Int} {c : Char} (h : c ∈ numeral i) : c.isDigit = true ∨ c = '-' := by
  unfold numeral at h
  rw [show toString i = Int.repr i from rfl] at h
  cases i with
  | ofNat n =>
    rw [show Int.repr (.ofNat n) = Nat.repr n from rfl, Nat.toList_repr] at h
    exact Or.inl (Nat.isDigit_of_mem_toDigits (by decide) (by decide) h)
  | negSucc n =>
    rw [show Int.repr (.negSucc n) = "-" ++ Nat.repr (n + 1) from rfl, String.toList_append, List.mem_append] at h
    rcases h with h | h
    · exact Or.inr (by simpa using h)
    · rw [Nat.toList_repr] at h
      exact Or.inl (Nat.isDigit_of_mem_toDigits (by decide) (by decide) h)

theorem numeral_not {c : Char} (hd : c.isDigit = false) (hm : c ≠ '-') (i : Int) : c ∉ numeral i := fun h => by
  rcases numeral_char h with h | h
  · rw [h] at hd; cases hd
  · exact hm h

theorem numeral_injective {i j : Int} (h : numeral i = numeral j) : i = j :=
  Int.repr_injective (String.toList_injective h)

/-- Two texts agree up to the first occurrence of a character that is not in the beginnings. -/
theorem before_first {c : Char} {a b r s : List Char} (ha : c ∉ a) (hb : c ∉ b) (h : a ++ c :: r = b ++ c :: s) :
    a = b ∧ r = s := by
  induction a generalizing b with
  | nil =>
    cases b with
    | nil => exact ⟨rfl, by simpa using h⟩
    | cons x b => simp at h; exact absurd (by simp [h.1]) hb
  | cons x a ih =>
    cases b with
    | nil => simp at h; exact absurd (by simp [h.1]) ha
    | cons y b =>
      simp only [List.cons_append, List.cons.injEq] at h
      obtain ⟨h1, h2⟩ := ih (fun hc => ha (List.mem_cons_of_mem _ hc)) (fun hc => hb (List.mem_cons_of_mem _ hc)) h.2
      exact ⟨by rw [h.1, h1], h2⟩

/-- The end of a tuple from some entry on. -/
def tupleEnd : List Int → List Char
  | [] => [')']
  | [i] => numeral i ++ [')']
  | i :: j :: l => numeral i ++ ',' :: ' ' :: tupleEnd (j :: l)

theorem tupleEnd_eq (l : List Int) : tupleEnd l = [',', ' '].intercalate (l.map numeral) ++ [')'] := by
  rw [← joinText_eq]
  induction l with
  | nil => rfl
  | cons i l ih =>
    cases l with
    | nil => rfl
    | cons j l =>
      rw [tupleEnd, ih]
      simp [joinText]

theorem tupleEnd_injective {l l' : List Int} (hl : l ≠ []) (hl' : l' ≠ []) (h : tupleEnd l = tupleEnd l') : l = l' := by
  have hc := numeral_not (c := ',') (by decide) (by decide)
  have hp := numeral_not (c := ')') (by decide) (by decide)
  induction l generalizing l' with
  | nil => exact absurd rfl hl
  | cons i l ih =>
    match l', l with
    | [], _ => exact absurd rfl hl'
    | [j], [] =>
      rw [numeral_injective (before_first (hp i) (hp j) h).1]
    | j :: k :: l', [] =>
      exfalso
      have : ',' ∈ tupleEnd [i] := by rw [h]; simp [tupleEnd]
      simp [tupleEnd, hc i] at this
    | [j], k :: l =>
      exfalso
      have : ',' ∈ tupleEnd [j] := by rw [← h]; simp [tupleEnd]
      simp [tupleEnd, hc j] at this
    | j :: k :: l', m :: l =>
      obtain ⟨h1, h2⟩ := before_first (hc i) (hc j) h
      rw [numeral_injective h1, ih (List.cons_ne_nil _ _) (List.cons_ne_nil _ _) (List.cons.inj h2).2]

theorem tuple_injective {l l' : List Int} (h : tuple l = tuple l') : l = l' := by
  have hc := numeral_not (c := ',') (by decide) (by decide)
  have hp := numeral_not (c := ')') (by decide) (by decide)
  have e0 : tuple [] = '(' :: [] ++ [')'] := rfl
  have e1 : ∀ i, tuple [i] = '(' :: (numeral i ++ ',' :: [')']) := fun i => by simp [tuple, List.intercalate]
  have e2 : ∀ i j l, tuple (i :: j :: l) = '(' :: (numeral i ++ ',' :: ' ' :: tupleEnd (j :: l)) := fun i j l => by
    have := tupleEnd_eq (i :: j :: l)
    unfold tuple
    rw [if_neg (by simp), show "(".toList = ['('] from rfl, show ")".toList = [')'] from rfl, List.append_assoc, ← this]
    rfl
  have none : ∀ i r, ([')'] : List Char) ≠ numeral i ++ ',' :: r := fun i r hh => by
    have : ',' ∈ ([')'] : List Char) := by rw [hh]; simp
    simp at this
  match l, l' with
  | [], [] => rfl
  | [], [j] => rw [e0, e1] at h; exact absurd (by simpa using h) (none j _)
  | [], j :: k :: l' => rw [e0, e2] at h; exact absurd (by simpa using h) (none j _)
  | [i], [] => rw [e0, e1] at h; exact absurd (by simpa using h.symm) (none i _)
  | i :: m :: l, [] => rw [e0, e2] at h; exact absurd (by simpa using h.symm) (none i _)
  | [i], [j] =>
    rw [e1, e1] at h
    rw [numeral_injective (before_first (hc i) (hc j) (List.cons.inj h).2).1]
  | [i], j :: k :: l' =>
    rw [e1, e2] at h
    have := (before_first (hc i) (hc j) (List.cons.inj h).2).2
    simp at this
  | i :: m :: l, [j] =>
    rw [e1, e2] at h
    have := (before_first (hc i) (hc j) (List.cons.inj h).2).2
    simp at this
  | i :: m :: l, j :: k :: l' =>
    rw [e2, e2] at h
    obtain ⟨h1, h2⟩ := before_first (hc i) (hc j) (List.cons.inj h).2
    rw [numeral_injective h1, tupleEnd_injective (List.cons_ne_nil _ _) (List.cons_ne_nil _ _) (List.cons.inj h2).2]

/-! ### C106 -/

/-- The entries of a dictionary in the order in which they are shown. -/
def shownEntries (info : Dict String (List Char)) : List (String × List Char) :=
  infoOrder.filterMap fun key => (info.get? key).map fun value => (key, value)

theorem infoText_eq (info : Dict String (List Char)) : infoText info = sheet (shownEntries info) := by
  unfold infoText sheet shownEntries
  induction infoOrder with
  | nil => rfl
  | cons key l ih =>
    rw [List.flatMap_cons, ih, List.filterMap_cons]
    cases info.get? key <;> simp

theorem showInfo_eq (T : Typeset K) (opt : Options) {w : World K} {t : Id'} {o : Obj K} {info : Dict String (List Char)}
    (ho : w.objs[t]? = some o) (ha : o.alive = true) (h : fullInfo T opt t w = (.ok info, w)) :
    showInfo T opt t w = (.ok (page opt o.name (shownEntries info)), w) := by
  unfold showInfo
  refine PyM.then_ok h (PyM.then_ok (getObj_ok ho ha) ?_)
  have e : (infoOrder.filterMap fun key => (info.get? key).map fun value => (key.toList, value)) =
      (shownEntries info).map fun e => (e.1.toList, e.2) := by
    unfold shownEntries
    rw [List.map_filterMap]
    congr 1
    funext key
    cases info.get? key <;> rfl
  rw [e, joinText_eq, List.map_map, List.map_map]
  rfl

/-- **C106** After any sequence of calls whose arguments were registered at the time of the call, `str` and `info` work for every
registered object without any effect; they show its name, its symbol, its class, its rank, its metric, coordinates and default
indices, and the objects that use it, in this order and nothing else. -/
theorem C106_text_partial [CommRing K] [DecidableEq K] [Algebra ℚ K] (E : Engine K) (letters : List Sym)
    (calls : List (Call K)) (hp : Proper E letters calls fresh) (T : Typeset K) (opt : Options) (t : Id')
    (ht : t ∈ (history E letters calls fresh).instances) :
    ∃ o entries, (history E letters calls fresh).objs[t]? = some o ∧
      Entries (history E letters calls fresh) t o
        (if opt.latex then "$".toList ++ T.symbol o.symbol ++ "$".toList else o.symbol.toList) entries ∧
      strObj T opt t (history E letters calls fresh) = (.ok (sheet entries), history E letters calls fresh) ∧
      showInfo T opt t (history E letters calls fresh) = (.ok (page opt o.name entries), history E letters calls fresh) := by
  obtain ⟨hs, hd, -⟩ := C47_references_partial E letters calls hp
  generalize history E letters calls fresh = w at *
  obtain ⟨o, ho, ha⟩ := hs.inUse t ht
  have hne : w.instances ≠ [] := List.ne_nil_of_mem ht
  have href := hd t ht o ho
  set symbol : List Char := if opt.latex then "$".toList ++ T.symbol o.symbol ++ "$".toList else o.symbol.toList with hsym
  have finish : ∀ info, getInfo t w = (.ok info, w) → ∀ entries,
      shownEntries (info ++ [("Symbol", symbol), ("Rank", numeral o.indices.length), ("Default Indices", tuple o.indices)]) = entries →
      Entries w t o symbol entries → ∃ o' entries, w.objs[t]? = some o' ∧
        Entries w t o' (if opt.latex then "$".toList ++ T.symbol o'.symbol ++ "$".toList else o'.symbol.toList) entries ∧
        strObj T opt t w = (.ok (sheet entries), w) ∧ showInfo T opt t w = (.ok (page opt o'.name entries), w) := by
    intro info h entries he hE
    have hf : fullInfo T opt t w = (.ok (info ++ [("Symbol", symbol), ("Rank", numeral o.indices.length),
        ("Default Indices", tuple o.indices)]), w) := by
      unfold fullInfo
      refine PyM.then_ok (getObj_ok ho ha) (PyM.then_ok h ?_)
      rw [← tupleText_eq, hsym]
      rfl
    refine ⟨o, entries, ho, hE, ?_, ?_⟩
    · unfold strObj
      refine PyM.then_ok hf ?_
      rw [infoText_eq, he]
      rfl
    · rw [showInfo_eq T opt ho ha hf, he]
  by_cases hk : o.kind = .coordinates
  · obtain ⟨users, u1, u2⟩ := namesOf_listed hs fun p => p.coords == t
    have hreg : Registered w (fun p => p.coords = t) users := ⟨u1.1, fun i => by rw [u1.2 i]; simp⟩
    have hget : ∀ tr, transInfo (o.trans.map (·.1)) w = (.ok tr, w) → getInfo t w =
        (.ok ([("Name", o.name.toList), ("Type", (className o.kind).toList)] ++ tr ++
          [("Default Coordinates For", commaText (namesOf w fun p => p.coords == t))]), w) := by
      intro tr t1
      unfold getInfo
      refine PyM.then_ok (getObj_ok ho ha) ?_
      refine PyM.then_ok (w' := w) (a := w) rfl ?_
      rw [hk]
      refine PyM.then_ok t1 ?_
      rw [if_neg hne]
      rfl
    by_cases h : o.trans = []
    · refine finish _ (hget [] (by unfold transInfo; rw [h]; rfl)) _ rfl ⟨[("Default Indices", tuple o.indices),
        ("Default Coordinates For", commaText (namesOf w fun p => p.coords == t))], ?_, fun _ => ⟨users, _, hreg, u2, Or.inl ⟨h, rfl⟩⟩,
        fun h => absurd (hk.symm.trans h) (by decide), fun h => absurd hk h⟩
      rw [className_title]
      rfl
    · obtain ⟨names, h1, h2⟩ := readNames_ok (w := w) (o.trans.map (·.1)) (by
        intro c hc
        obtain ⟨⟨c', r⟩, h3, rfl⟩ := List.mem_map.1 hc
        exact href _ (Or.inl ⟨hk, r, h3⟩))
      refine finish _ (hget [("Coordinate Transformations", commaText names)] (by
        unfold transInfo; rw [if_neg (by simpa using h)]; exact PyM.then_ok h1 rfl)) _ rfl
        ⟨[("Default Indices", tuple o.indices), ("Default Coordinates For", commaText (namesOf w fun p => p.coords == t)),
          ("Coordinate Transformations", commaText names)], ?_, fun _ => ⟨users, _, hreg, u2, Or.inr ⟨h, _,
            ⟨names, h2, commaText_eq _⟩, rfl⟩⟩,
        fun h => absurd (hk.symm.trans h) (by decide), fun h => absurd hk h⟩
      rw [className_title]
      rfl
  · obtain ⟨oc, hc, hca⟩ := href o.coords (Or.inr ⟨hk, Or.inr (Or.inl rfl)⟩)
    obtain ⟨om, hm, hma⟩ := href o.metric (Or.inr ⟨hk, Or.inl rfl⟩)
    by_cases hkm : o.kind = .metric
    · obtain ⟨users, u1, u2⟩ := namesOf_listed hs fun p => p.metric == t
      refine finish [("Name", o.name.toList), ("Type", (className o.kind).toList),
        ("Default Coordinates", oc.name.toList),
        ("Tensors Using This Metric", commaText (namesOf w fun p => p.metric == t))] ?_ _ rfl
        ⟨[("Default Coordinates", oc.name.toList), ("Default Indices", tuple o.indices),
          ("Tensors Using This Metric", commaText (namesOf w fun p => p.metric == t))], ?_, fun h => absurd h hk,
          fun _ => ⟨oc, hc, users, _, ⟨u1.1, fun i => by rw [u1.2 i]; simp⟩, u2, rfl⟩, fun _ h => absurd hkm h⟩
      · unfold getInfo
        refine PyM.then_ok (getObj_ok ho ha) ?_
        refine PyM.then_ok (w' := w) (a := w) rfl ?_
        rw [hkm]
        refine PyM.then_ok (getObj_ok hc hca) ?_
        rw [if_neg hne]
        rfl
      · rw [className_title]
        rfl
    · refine finish [("Name", o.name.toList), ("Type", (className o.kind).toList),
        ("Default Coordinates", oc.name.toList), ("Metric", om.name.toList)] ?_ _ rfl
        ⟨[("Metric", om.name.toList), ("Default Coordinates", oc.name.toList), ("Default Indices", tuple o.indices)], ?_,
          fun h => absurd h hk, fun h => absurd h hkm, fun _ _ => ⟨oc, om, hc, hm, rfl⟩⟩
      · unfold getInfo
        refine PyM.then_ok (getObj_ok ho ha) ?_
        refine PyM.then_ok (w' := w) (a := w) rfl ?_
        rcases o with ⟨_ | _ | _ | _ | _ | _ | _ | _⟩ <;> first
          | exact absurd rfl hk
          | exact absurd rfl hkm
          | exact PyM.then_ok (getObj_ok hc hca) (PyM.then_ok (getObj_ok hm hma) rfl)
      · rw [className_title]
        rfl

/-- **C106** is false without the proviso, as C71. -/
theorem C106_false [CommRing K] [DecidableEq K] [Algebra ℚ K] (E : Engine K) (letters : List Sym) (T : Typeset K) (opt : Options) :
    ∃ (calls : List (Call K)) (t : Id'), t ∈ (history E letters calls fresh).instances ∧
      strObj T opt t (history E letters calls fresh) = (.error .attributeError, history E letters calls fresh) :=
  ⟨[.coordinates (.val "A") (.val [1]) ["x"] (.tuple [1]) (.val "x"),
    .coordinates (.val "B") (.val [1]) ["y"] (.tuple [1]) (.val "y"), .delete 1, .transformation 0 1 (some [])], 0,
    show 0 ∈ [0] by simp, rfl⟩

/-! ### C107 -/

/-- The text has one line. -/
def Spec.OneLine (s : String) : Prop := '\n' ∉ s.toList

/-- What `str` says of an object: its name, symbol, class and default indices, the names of its coordinates and its metric. -/
structure Spec.Alike (w w' : World K) (o o' : Obj K) : Prop where
  name : o.name = o'.name
  symbol : o.symbol = o'.symbol
  kind : o.kind = o'.kind
  indices : o.indices = o'.indices
  coords : o.kind ≠ .coordinates → ∃ c c', w.objs[o.coords]? = some c ∧ w'.objs[o'.coords]? = some c' ∧ c.name = c'.name
  metric : o.kind ≠ .coordinates → o.kind ≠ .metric → ∃ m m', w.objs[o.metric]? = some m ∧ w'.objs[o'.metric]? = some m' ∧
    m.name = m'.name

/-- The names and symbols that are shown have one line each. -/
def Spec.Plain (w : World K) (o : Obj K) : Prop :=
  OneLine o.name ∧ OneLine o.symbol ∧ (∀ c, w.objs[o.coords]? = some c → OneLine c.name) ∧
    ∀ m, w.objs[o.metric]? = some m → OneLine m.name

theorem sheet_cons {key : String} {a b : List Char} {l l' : List (String × List Char)} (hk : '\n' ∉ key.toList) (ha : '\n' ∉ a)
    (hb : '\n' ∉ b) (h : sheet ((key, a) :: l) = sheet ((key, b) :: l')) : a = b ∧ sheet l = sheet l' := by
  have e : ∀ (v : List Char) (l : List (String × List Char)), sheet ((key, v) :: l) =
      (key.toList ++ ": ".toList ++ v ++ [' ']) ++ '\n' :: sheet l := fun v l => by
    simp [sheet]
  rw [e, e] at h
  have hn : ∀ v : List Char, '\n' ∉ v → '\n' ∉ key.toList ++ ": ".toList ++ v ++ [' '] := fun v hv => by
    simp [hk, hv]
  obtain ⟨h1, h2⟩ := before_first (hn a ha) (hn b hb) h
  exact ⟨List.append_cancel_left (List.append_cancel_right h1), h2⟩

theorem classTitle_injective {k k' : Kind} (h : (classTitle k).toList = (classTitle k').toList) : k = k' := by
  revert h
  cases k <;> cases k' <;> decide

theorem classTitle_oneLine (k : Kind) : '\n' ∉ (classTitle k).toList := by cases k <;> decide

theorem tuple_oneLine (l : List Int) : '\n' ∉ tuple l := by
  have hn := numeral_not (c := '\n') (by decide) (by decide)
  have : ∀ l, '\n' ∉ tupleEnd l := by
    intro l
    induction l with
    | nil => decide
    | cons i l ih =>
      cases l with
      | nil => simp [tupleEnd, hn i]
      | cons j l => simp [tupleEnd, hn i, ih]
  intro h
  unfold tuple at h
  have h2 := this l
  rw [tupleEnd_eq] at h2
  simp only [List.mem_append] at h h2
  rcases h with (h | h) | h
  · simp at h
  · exact h2 (Or.inl h)
  · split_ifs at h <;> simp at h

/-- **C107** If the names and symbols have one line each, then two objects, in the same session or in two sessions, for which `str`
returns the same text (without LaTeX) have the same name, symbol, class and default indices, and the names of their coordinates and of
their metrics are the same. -/
theorem C107_identified_partial [CommRing K] [DecidableEq K] [Algebra ℚ K] (E : Engine K) (letters letters' : List Sym)
    (calls calls' : List (Call K)) (hp : Proper E letters calls fresh) (hp' : Proper E letters' calls' fresh) (T : Typeset K)
    (opt : Options) (hl : opt.latex = false) {t t' : Id'} (ht : t ∈ (history E letters calls fresh).instances)
    (ht' : t' ∈ (history E letters' calls' fresh).instances)
    {o o' : Obj K} (ho : (history E letters calls fresh).objs[t]? = some o)
    (ho' : (history E letters' calls' fresh).objs[t']? = some o')
    (hn : Plain (history E letters calls fresh) o) (hn' : Plain (history E letters' calls' fresh) o')
    (h : (strObj T opt t (history E letters calls fresh)).1 = (strObj T opt t' (history E letters' calls' fresh)).1) :
    Alike (history E letters calls fresh) (history E letters' calls' fresh) o o' := by
  obtain ⟨p, entries, h1, ⟨rest, rfl, hA⟩, h3, -⟩ := C106_text_partial E letters calls hp T opt t ht
  obtain ⟨p', entries', h1', ⟨rest', rfl, hA'⟩, h3', -⟩ := C106_text_partial E letters' calls' hp' T opt t' ht'
  rw [ho] at h1; cases h1
  rw [ho'] at h1'; cases h1'
  rw [h3, h3', hl] at h
  generalize history E letters calls fresh = w at *
  generalize history E letters' calls' fresh = w' at *
  have h : sheet _ = sheet _ := Except.ok.inj h
  simp only [if_neg (show ¬ (false = true) by decide), List.cons_append, List.nil_append] at h
  obtain ⟨e1, h⟩ := sheet_cons (by decide) hn.1 hn'.1 h
  obtain ⟨e2, h⟩ := sheet_cons (by decide) hn.2.1 hn'.2.1 h
  obtain ⟨e3, h⟩ := sheet_cons (by decide) (classTitle_oneLine _) (classTitle_oneLine _) h
  have e3 := classTitle_injective e3
  obtain ⟨-, h⟩ := sheet_cons (by decide) (numeral_not (by decide) (by decide) _) (numeral_not (by decide) (by decide) _) h
  have e1 := String.toList_injective e1
  have e2 := String.toList_injective e2
  by_cases hk : o.kind = .coordinates
  · obtain ⟨u, x, -, -, hx⟩ := hA.1 hk
    obtain ⟨u', x', -, -, hx'⟩ := hA'.1 (e3 ▸ hk)
    have : ∃ r, rest = ("Default Indices", tuple o.indices) :: r := by
      rcases hx with ⟨-, hx⟩ | ⟨-, y, -, hx⟩ <;> exact ⟨_, hx⟩
    obtain ⟨r, hr⟩ := this
    have : ∃ r, rest' = ("Default Indices", tuple o'.indices) :: r := by
      rcases hx' with ⟨-, hx⟩ | ⟨-, y, -, hx⟩ <;> exact ⟨_, hx⟩
    obtain ⟨r', hr'⟩ := this
    rw [hr, hr'] at h
    obtain ⟨e4, -⟩ := sheet_cons (by decide) (tuple_oneLine _) (tuple_oneLine _) h
    exact ⟨e1, e2, e3, tuple_injective e4, fun hc => absurd hk hc, fun hc => absurd hk hc⟩
  · by_cases hm : o.kind = .metric
    · obtain ⟨c, hc, u, x, -, -, hx⟩ := hA.2.1 hm
      obtain ⟨c', hc', u', x', -, -, hx'⟩ := hA'.2.1 (e3 ▸ hm)
      rw [hx, hx'] at h
      obtain ⟨e4, h⟩ := sheet_cons (by decide) (hn.2.2.1 c hc) (hn'.2.2.1 c' hc') h
      obtain ⟨e5, -⟩ := sheet_cons (by decide) (tuple_oneLine _) (tuple_oneLine _) h
      exact ⟨e1, e2, e3, tuple_injective e5, fun _ => ⟨c, c', hc, hc', String.toList_injective e4⟩, fun _ hc => absurd hm hc⟩
    · obtain ⟨c, m, hc, hm1, hx⟩ := hA.2.2 hk hm
      obtain ⟨c', m', hc', hm1', hx'⟩ := hA'.2.2 (e3 ▸ hk) (e3 ▸ hm)
      rw [hx, hx'] at h
      obtain ⟨e4, h⟩ := sheet_cons (by decide) (hn.2.2.2 m hm1) (hn'.2.2.2 m' hm1') h
      obtain ⟨e5, h⟩ := sheet_cons (by decide) (hn.2.2.1 c hc) (hn'.2.2.1 c' hc') h
      obtain ⟨e6, -⟩ := sheet_cons (by decide) (tuple_oneLine _) (tuple_oneLine _) h
      exact ⟨e1, e2, e3, tuple_injective e6, fun _ => ⟨c, c', hc, hc', String.toList_injective e5⟩,
        fun _ _ => ⟨m, m', hm1, hm1', String.toList_injective e4⟩⟩

/-- Two systems with different names and symbols. -/
def severalLines : List (Call ℚ) :=
  [.coordinates (.val "A") (.val [1]) ["x"] (.tuple [1]) (.val "B \nSymbol: C"),
    .coordinates (.val "A \nSymbol: B") (.val [1]) ["x"] (.tuple [1]) (.val "C")]

/-- **C107** is false for names with several lines: there are two coordinate systems with different names for which `str` returns the
same text. -/
theorem C107_false : EngineOK codeEngine ∧ ∃ (calls : List (Call ℚ)) (t t' : Id') (name name' : String),
    Proper codeEngine [] calls fresh ∧ t ∈ (history codeEngine [] calls fresh).instances ∧
    t' ∈ (history codeEngine [] calls fresh).instances ∧ Named (history codeEngine [] calls fresh) name t ∧
    Named (history codeEngine [] calls fresh) name' t' ∧ name ≠ name' ∧
    ∀ T, (strObj T { latex := false } t (history codeEngine [] calls fresh)).1 =
      (strObj T { latex := false } t' (history codeEngine [] calls fresh)).1 := by
  refine ⟨codeEngine_ok, severalLines, 0, 1, "A", "A \nSymbol: B", ⟨by decide +kernel, by decide +kernel, trivial⟩, by decide +kernel,
    by decide +kernel, ⟨_, rfl, rfl⟩, ⟨_, rfl, rfl⟩, by decide, fun T => ?_⟩
  have h : ∀ t, strObj T { latex := false } t (history codeEngine [] severalLines fresh) =
      strObj ⟨fun _ => [], fun _ => []⟩ { latex := false } t (history codeEngine [] severalLines fresh) := fun t => rfl
  rw [h, h]
  decide +kernel

/-- The hypotheses of C106 and C107 hold of a session with coordinates, a metric and a tensor, and this is what `str` returns for the
tensor. -/
example : Proper codeEngine [] codeCalls fresh ∧ (history codeEngine [] codeCalls fresh).instances = [0, 1, 2] ∧
    (strObj ⟨fun _ => [], fun _ => []⟩ { latex := false } 2 (history codeEngine [] codeCalls fresh)).1 = .ok
      ("Name: V \nSymbol: v \nType: Tensor \nRank: 1 \nMetric: Flat \nDefault Coordinates: Plane \n" ++
        "Default Indices: (1,) \n").toList ∧
    ∀ o, (history codeEngine [] codeCalls fresh).objs[2]? = some o → Plain (history codeEngine [] codeCalls fresh) o := by
  refine ⟨⟨by decide +kernel, by decide +kernel, by decide +kernel, trivial⟩, by decide +kernel, by decide +kernel, ?_⟩
  have h : ∀ o ∈ (history codeEngine [] codeCalls fresh).objs, '\n' ∉ o.name.toList ∧ '\n' ∉ o.symbol.toList := by decide +kernel
  exact fun o ho => ⟨(h o (List.mem_of_getElem? ho)).1, (h o (List.mem_of_getElem? ho)).2,
    fun c hc => (h c (List.mem_of_getElem? hc)).1, fun c hc => (h c (List.mem_of_getElem? hc)).1⟩

/-- A metric, and a coordinate system that is used. -/
example : (strObj ⟨fun _ => [], fun _ => []⟩ { latex := false } 1 (history codeEngine [] codeCalls fresh)).1 = .ok
      ("Name: Flat \nSymbol: g \nType: Metric \nRank: 2 \nDefault Coordinates: Plane \nDefault Indices: (-1, -1) \n" ++
        "Tensors Using This Metric: Flat, V \n").toList ∧
    (strObj ⟨fun _ => [], fun _ => []⟩ { latex := false } 0 (history codeEngine [] codeCalls fresh)).1 = .ok
      ("Name: Plane \nSymbol: x \nType: Coordinates \nRank: 1 \nDefault Indices: (1,) \n" ++
        "Default Coordinates For: Flat, V \n").toList := by
  decide +kernel

end PyOGRe
