import Verif.Lemmas.Says
import Verif.Lemmas.World
import Verif.Spec.Exported

/-!
# The text of an object means that object
-/

namespace PyOGRe
open Spec

/-! ### Dictionaries -/

theorem Dict.mem_set_iff {α β : Type} [DecidableEq α] {d : Dict α β} {k : α} {v : β} {p : α × β}
    (h : p ∈ Dict.set d k v) : p ∈ d ∨ p = (k, v) := by
  induction d with
  | nil => right; simpa [Dict.set] using h
  | cons q d ih =>
    rw [Dict.set] at h
    split_ifs at h with hq
    · rcases List.mem_cons.1 h with rfl | h
      · exact Or.inr rfl
      · exact Or.inl (List.mem_cons_of_mem _ h)
    · rcases List.mem_cons.1 h with rfl | h
      · exact Or.inl (by simp)
      · rcases ih h with h | h
        · exact Or.inl (List.mem_cons_of_mem _ h)
        · exact Or.inr h

theorem Dict.keys_set {α β : Type} [DecidableEq α] {d : Dict α β} (h : UniqueKeys d) (k : α) (v : β) :
    UniqueKeys (Dict.set d k v) := by
  unfold UniqueKeys at h ⊢
  induction d with
  | nil => simp [Dict.set]
  | cons q d ih =>
    rw [List.map_cons, List.nodup_cons] at h
    rw [Dict.set]
    split_ifs with hq
    · subst hq
      rw [List.map_cons, List.nodup_cons]; exact h
    · rw [List.map_cons, List.nodup_cons]
      refine ⟨fun hm => ?_, ih h.2⟩
      obtain ⟨p, hp, e⟩ := List.mem_map.1 hm
      rcases Dict.mem_set_iff hp with hp | rfl
      · exact h.1 (e ▸ List.mem_map_of_mem hp)
      · exact hq e.symm

theorem Dict.get?_mem {α β : Type} [DecidableEq α] {d : Dict α β} {k : α} {v : β} (h : d.get? k = some v) :
    (k, v) ∈ d := by
  induction d with
  | nil => cases h
  | cons p d ih =>
    rw [Dict.get?_cons] at h
    split_ifs at h with hp
    · cases h; subst hp; exact List.mem_cons_self
    · exact List.mem_cons_of_mem _ (ih h)

theorem Dict.get?_none_of_key {α β : Type} [DecidableEq α] {d : Dict α β} {k : α}
    (h : k ∉ d.map Prod.fst) : d.get? k = none := by
  rcases hk : d.get? k with _ | v
  · rfl
  · exact absurd (List.mem_map_of_mem (f := Prod.fst) (Dict.get?_mem hk)) h

section
variable {K : Type} [DecidableEq K] [CommRing K]

theorem Spec.Expressed.says {R : Reader K} {s : List Char} {x : K} (h : Expressed R s x) : Says R s (.num x) := by
  obtain ⟨ts, t, rfl, hb, hr, hv⟩ := h
  exact ⟨ts, t, hb.cleared, hb, hr, hv⟩

/-! ### Arrays -/

/-- The nested lists of an array. -/
def arrVal : List Nat → List K → Val K
  | [], x :: _ => .num x
  | [], [] => .num 0
  | d :: s, data => .list ((List.range d).map fun i => arrVal s ((data.drop (i * s.prod)).take s.prod))

omit [DecidableEq K] [CommRing K] in
theorem chunk_length {d p i : Nat} {data : List K} (h : data.length = d * p) (hi : i < d) :
    ((data.drop (i * p)).take p).length = p := by
  rw [List.length_take, List.length_drop, h]
  have : (i + 1) * p ≤ d * p := Nat.mul_le_mul_right p hi
  rw [Nat.add_mul, Nat.one_mul] at this
  omega

omit [DecidableEq K] [CommRing K] in
theorem chunk_mem {p i : Nat} {data : List K} {x : K} (h : x ∈ (data.drop (i * p)).take p) : x ∈ data :=
  List.mem_of_mem_drop (List.mem_of_mem_take h)

theorem saysAll_map {R : Reader K} {α : Type} {f : α → List Char} {g : α → Val K} : ∀ {l : List α},
    (∀ x ∈ l, Says R (f x) (g x)) → SaysAll R (l.map f) (l.map g)
  | [], _ => .nil
  | a :: l, h => .cons (h a (by simp)) (saysAll_map fun x hx => h x (List.mem_cons_of_mem _ hx))

theorem says_arr {R : Reader K} {code : K → List Char} : ∀ (shape : List Nat) (data : List K),
    data.length = shape.prod → (∀ x ∈ data, Says R (code x) (.num x)) →
    Says R (arrText code shape data) (arrVal shape data)
  | [], [], h, _ => by simp at h
  | [], x :: data, _, hx => by rw [arrText, arrVal]; exact hx x (by simp)
  | d :: s, data, h, hx => by
    rw [arrText, arrVal]
    refine says_list (sp := [.white]) rfl gap_white (saysAll_map ?_)
    intro i hi
    rw [List.mem_range] at hi
    rw [List.prod_cons] at h
    exact says_arr s _ (chunk_length h hi) (fun x hx' => hx x (chunk_mem hx'))

omit [DecidableEq K] [CommRing K] in
theorem chunks_flatten {p : Nat} {data : List K} : ∀ d : Nat,
    (List.range d).flatMap (fun i => (data.drop (i * p)).take p) = data.take (d * p)
  | 0 => by simp
  | d + 1 => by
    rw [List.range_succ, List.flatMap_append, chunks_flatten d, List.flatMap_singleton, Nat.add_mul, Nat.one_mul,
      List.take_add]

omit [DecidableEq K] [CommRing K] in
theorem arrayOfEach_ok {α : Type} {g : α → Val K} {f : α → Arr K} : ∀ {l : List α},
    (∀ x ∈ l, arrayOf (g x) = .ok (f x)) → arrayOfEach (l.map g) = .ok (l.map f)
  | [], _ => rfl
  | a :: l, h => by
    rw [List.map_cons, arrayOfEach, h a (by simp), arrayOfEach_ok fun x hx => h x (List.mem_cons_of_mem _ hx)]
    rfl

omit [DecidableEq K] in
theorem arrayOf_arrVal : ∀ (shape : List Nat) (data : List K), data.length = shape.prod →
    (∀ d ∈ shape, 0 < d) → arrayOf (arrVal shape data) = .ok ⟨shape, data⟩
  | [], [], h, _ => by simp at h
  | [], [x], _, _ => rfl
  | [], _ :: _ :: _, h, _ => by simp at h
  | d :: s, data, h, hd => by
    rw [List.prod_cons] at h
    rw [arrVal, arrayOf, arrayOfEach_ok (f := fun i => ⟨s, (data.drop (i * s.prod)).take s.prod⟩)]
    · obtain ⟨d', rfl⟩ : ∃ d', d = d' + 1 := ⟨d - 1, by have := hd d (by simp); omega⟩
      show stackArrs _ = _
      have e := chunks_flatten (p := s.prod) (data := data) (d' + 1)
      rw [List.range_succ_eq_map] at e ⊢
      rw [List.map_cons, stackArrs, if_pos (by simp)]
      rw [List.flatMap_cons, ← h, List.take_length] at e
      simp only [List.length_map, List.length_range, Except.ok.injEq, Arr.mk.injEq, true_and]
      conv_rhs => rw [← e]
      rw [List.flatMap_map]
    · intro i hi
      rw [List.mem_range] at hi
      exact arrayOf_arrVal s _ (chunk_length h hi) (fun x hx => hd x (List.mem_cons_of_mem _ hx))

/-- The value of the text of components. -/
def compsVal (array : Bool) (a : Arr K) : Val K :=
  if array ∧ a.shape = [] then .list [arrVal [] a.data] else arrVal a.shape a.data

theorem says_comps {I : Importer K} {P : Printer K} {array : Bool} {a : Arr K} (h : ReadsBack I P a) :
    Says I.toReader (compsText P array a) (compsVal array a) := by
  have hx : ∀ x ∈ a.data, Says I.toReader (P.code x) (.num x) := fun x hx => (h.2 x hx).says
  unfold compsText compsVal
  split_ifs with hs
  · refine says_list (sp := [.white]) rfl gap_white (.cons ?_ .nil)
    exact says_arr [] a.data (by rw [h.1, hs.2]) hx
  · exact says_arr a.shape a.data h.1 hx

/-! ### Configurations -/

/-- The value of the text of an index configuration. -/
def indicesVal (l : List Int) : Val K := .list (l.map fun i : Int => Val.num (Int.cast i : K))

theorem says_indices {R : Reader K} (h1 : R.atom ['1'] = .ok 1) {sp : List Tok} {sep : List Char}
    (hsep : sep = ',' :: text sp) (hsp : Gap sp) {l : List Int} (hl : ∀ i ∈ l, i = 1 ∨ i = -1) :
    Says R (listText sep (l.map intText)) (indicesVal l) :=
  says_list hsep hsp (saysAll_map fun i hi => says_index R h1 (hl i hi))

/-- The value of the text of a key of the components. -/
def configVal (p : List Int × String) : Val K := .list [indicesVal p.1, .str p.2.toList]

theorem says_config {R : Reader K} (h1 : R.atom ['1'] = .ok 1) {p : List Int × String}
    (hl : ∀ i ∈ p.1, i = 1 ∨ i = -1) (hn : Nameable p.2) : Says R (configText p) (configVal p) :=
  says_list (sp := []) rfl gap_nil
    (.cons (says_indices h1 (sp := []) rfl gap_nil hl) (.cons (says_quoted R hn) .nil))

theorem same_indices (hne : (1 : K) ≠ -1) : ∀ {l m : List Int}, (∀ i ∈ l, i = 1 ∨ i = -1) →
    (∀ i ∈ m, i = 1 ∨ i = -1) → (indicesVal l : Val K).same (indicesVal m) = decide (l = m) := by
  have h : ∀ {l m : List Int}, (∀ i ∈ l, i = 1 ∨ i = -1) → (∀ i ∈ m, i = 1 ∨ i = -1) →
      sameEach (l.map fun i : Int => Val.num (Int.cast i : K)) (m.map fun i : Int => Val.num (Int.cast i : K)) = decide (l = m) := by
    intro l
    induction l with
    | nil =>
      intro m _ _
      rcases m with _ | ⟨b, m⟩
      · simp [sameEach]
      · simp [sameEach]
    | cons a l ih =>
      intro m hl hm
      rcases m with _ | ⟨b, m⟩
      · simp [sameEach]
      · rw [List.map_cons, List.map_cons, sameEach, ih (fun i hi => hl i (List.mem_cons_of_mem _ hi))
          (fun i hi => hm i (List.mem_cons_of_mem _ hi)), Val.same]
        have : ((Int.cast a : K) == (Int.cast b : K)) = decide (a = b) := by
          rcases hl a (by simp) with rfl | rfl <;> rcases hm b (by simp) with rfl | rfl
          · simp
          · simpa using hne
          · simpa using hne.symm
          · simp
        rw [this]
        by_cases h1 : a = b <;> by_cases h2 : l = m <;> simp [h1, h2]
  intro l m hl hm
  unfold indicesVal
  rw [Val.same, h hl hm]

theorem indicesOf_val (hne : (1 : K) ≠ -1) {l : List Int} (hl : ∀ i ∈ l, i = 1 ∨ i = -1) :
    indicesOf (indicesVal l : Val K) = .ok l := by
  unfold indicesVal indicesOf
  simp only [List.map_map, Except.ok.injEq]
  conv_rhs => rw [← List.map_id l]
  refine List.map_congr_left (fun i hi => ?_)
  rcases hl i hi with rfl | rfl
  · simp [indexOf]
  · simp only [Function.comp_apply, indexOf, id]
    rw [if_neg (by simpa using hne.symm), if_pos (by simp)]

/-! ### Looking the default components up -/

/-- Components that are imported as they were. -/
def Restores (a : Arr K) : Prop := a.WF ∧ (a.shape = [] ∨ ∀ d ∈ a.shape, 2 ≤ d)

/-- The components that are read from a value. -/
def readComps' (r : Val K) : Py (Arr K) :=
  match r with
  | .list l => if l.length > 1 then arrayOf r else match l with | x :: _ => arrayOf x | [] => .error .indexError
  | _ => .error .typeError

omit [DecidableEq K] in
theorem readComps_val {a : Arr K} (h : Restores a) : readComps' (compsVal true a) = .ok a := by
  obtain ⟨hw, hs⟩ := h
  rcases a with ⟨shape, data⟩
  rcases shape with _ | ⟨d, s⟩
  · simp only [compsVal, and_self, if_true, readComps', List.length_singleton, gt_iff_lt, lt_irrefl, if_false]
    exact arrayOf_arrVal [] data hw (by simp)
  · have hd : ∀ x ∈ d :: s, 2 ≤ x := by
      rcases hs with hs | hs
      · cases hs
      · exact hs
    have h1 := arrayOf_arrVal (d :: s) data hw (fun x hx => by have := hd x hx; omega)
    unfold compsVal readComps'
    rw [if_neg (by simp)]
    simp only []
    rw [arrVal] at h1 ⊢
    simp only [List.length_map, List.length_range]
    rw [if_pos (by have := hd d (by simp); omega)]
    exact h1

theorem findComps_cons (ix co : Val K) (c : Val K) (cs : List (Val K)) (r : Val K) (rs : List (Val K))
    (acc : Option (Arr K)) (x y : Val K) (hc : c = .list [x, y]) :
    findComps ix co (c :: cs) (r :: rs) acc =
      if x.same ix then
        if y.same co then
          match readComps' r with
          | .ok a => findComps ix co cs rs (some a)
          | .error e => .error e
        else findComps ix co cs rs acc
      else findComps ix co cs rs acc := by
  subst hc
  have e0 : (Val.list [x, y]).at 0 = .ok x := rfl
  have e1 : (Val.list [x, y]).at 1 = .ok y := rfl
  by_cases hx : x.same ix
  · by_cases hy : y.same co
    · cases r with
      | list l => simp only [findComps, e0, e1, py_ok_bind, hx, hy, if_true, readComps']; rfl
      | _ => simp only [findComps, e0, e1, py_ok_bind, hx, hy, if_true, readComps']
    · cases r <;> simp only [findComps, e0, e1, py_ok_bind, hx, hy, if_true, if_false, Bool.false_eq_true]
  · cases r <;> simp only [findComps, e0, py_ok_bind, hx, if_false, Bool.false_eq_true]

theorem same_str (s t : String) : (Val.str s.toList : Val K).same (.str t.toList) = decide (s = t) := by
  rw [Val.same]
  by_cases h : s = t
  · simp [h]
  · simp [h, String.toList_inj]

/-- The components of a configuration that occurs once. -/
theorem findComps_dict (hne : (1 : K) ≠ -1) {d : Dict (List Int × String) (Bool × Arr K)} (hd : UniqueKeys d)
    (hi : ∀ p ∈ d, ∀ i ∈ p.1.1, i = 1 ∨ i = -1) {ix : List Int} (hix : ∀ i ∈ ix, i = 1 ∨ i = -1) {co : String}
    {a : Arr K} (ha : d.get? (ix, co) = some (true, a)) (hr : Restores a) (acc : Option (Arr K)) :
    findComps (indicesVal ix) (.str co.toList) (d.map fun p => configVal p.1) (d.map fun p => compsVal p.2.1 p.2.2) acc =
      .ok (some a) := by
  induction d generalizing acc with
  | nil => cases ha
  | cons p d ih =>
    unfold UniqueKeys at hd ih
    rw [List.map_cons, List.nodup_cons] at hd
    rw [List.map_cons, List.map_cons, findComps_cons _ _ (configVal p.1) _ _ _ _ (indicesVal p.1.1) (.str p.1.2.toList) rfl,
      same_indices hne (hi p (by simp)) hix, same_str]
    rw [Dict.get?_cons] at ha
    have hrest : ∀ acc, (ix, co) ∉ d.map Prod.fst → findComps (indicesVal ix) (.str co.toList)
        (d.map fun p => configVal p.1) (d.map fun p => compsVal p.2.1 p.2.2) acc = .ok acc := by
      have hi' : ∀ p ∈ d, ∀ i ∈ p.1.1, i = 1 ∨ i = -1 := fun q hq => hi q (List.mem_cons_of_mem _ hq)
      clear ih ha hd hi
      intro acc
      induction d with
      | nil => intro _; rfl
      | cons q d ih' =>
        intro hn
        rw [List.map_cons, List.mem_cons, not_or] at hn
        rw [List.map_cons, List.map_cons,
          findComps_cons _ _ (configVal q.1) _ _ _ _ (indicesVal q.1.1) (.str q.1.2.toList) rfl,
          same_indices hne (hi' q (by simp)) hix, same_str, ih' (fun r hr => hi' r (List.mem_cons_of_mem _ hr)) hn.2]
        by_cases h1 : q.1.1 = ix
        · have h2 : q.1.2 ≠ co := fun h2 => hn.1 (by rw [← h1, ← h2])
          rw [if_pos (by simpa using h1), if_neg (by simpa using h2)]
        · rw [if_neg (by simpa using h1)]
    by_cases hk : p.1 = (ix, co)
    · rw [if_pos hk] at ha
      rw [Option.some.injEq] at ha
      rw [if_pos (by simp [hk]), if_pos (by simp [hk]), ha, readComps_val hr]
      exact hrest _ (hk ▸ hd.1)
    · rw [if_neg hk] at ha
      have hih := ih hd.2 (fun q hq => hi q (List.mem_cons_of_mem _ hq)) ha
      by_cases h1 : p.1.1 = ix
      · have h2 : p.1.2 ≠ co := fun h2 => hk (by rw [← h1, ← h2])
        rw [if_pos (by simpa using h1), if_neg (by simpa using h2), hih]
      · rw [if_neg (by simpa using h1), hih]

/-! ### Dictionaries of strings -/

/-- A dictionary with strings as keys. -/
def strDict (l : List (String × Val K)) : Val K := .dict (l.map fun p => (.str p.1.toList, p.2))

theorem strDict_item (l : List (String × Val K)) (key : String) : (strDict l).item key =
    match l.find? fun p => p.1 == key with
    | some p => .ok p.2
    | none => .error .keyError := by
  unfold strDict Val.item
  simp only [List.find?_map]
  have : ((fun p : Val K × Val K => p.1.sameKey (.str key.toList)) ∘ fun p : String × Val K =>
      (Val.str p.1.toList, p.2)) = fun p => p.1 == key := by
    funext p
    simp only [Function.comp_apply, Val.sameKey]
    by_cases h : p.1 = key
    · simp [h]
    · simp [h, String.toList_inj]
  rw [this]
  cases l.find? fun p => p.1 == key <;> rfl

theorem strDict_hasItem (l : List (String × Val K)) (key : String) :
    (strDict l).hasItem key = l.any fun p => p.1 == key := by
  unfold strDict Val.hasItem
  simp only [List.any_map]
  congr 1
  funext p
  simp only [Function.comp_apply, Val.sameKey]
  by_cases h : p.1 = key
  · simp [h]
  · simp [h, String.toList_inj]

/-- Text of an association with strings as keys. -/
theorem says_strDict {R : Reader K} {α : Type} {l : List α} {k : α → String} {f : α → List Char} {g : α → Val K}
    (hk : ∀ x ∈ l, Nameable (k x)) (hnd : (l.map k).Nodup) (h : ∀ x ∈ l, Says R (f x) (g x)) :
    Says R (assocText (l.map fun x => entryText (quotedText (k x)) (f x))) (strDict (l.map fun x => (k x, g x))) := by
  have h1 : SaysAll R ((l.map fun x => (quotedText (k x), f x)).map Prod.fst) (l.map fun x => Val.str (k x).toList) := by
    rw [List.map_map]
    exact saysAll_map fun x hx => says_quoted R (hk x hx)
  have h2 : SaysAll R ((l.map fun x => (quotedText (k x), f x)).map Prod.snd) (l.map g) := by
    rw [List.map_map]
    exact saysAll_map h
  have h3 := says_dict h1 h2 (by
    intro x hx
    obtain ⟨y, _, rfl⟩ := List.mem_map.1 hx
    rfl) (by
    rw [List.pairwise_map]
    have hnd' := hnd
    rw [List.Nodup, List.pairwise_map] at hnd'
    refine hnd'.imp ?_
    intro a b hab
    simp only [SameKey, String.toList_inj]
    exact hab)
  rw [List.map_map] at h3
  have e : (l.map fun x => (Val.str (k x).toList : Val K)).zip (l.map g) =
      ((l.map fun x => (k x, g x)).map fun p => ((Val.str p.1.toList : Val K), p.2)) := by
    rw [List.zip_map', List.map_map]; rfl
  rw [e] at h3
  exact h3

end

end PyOGRe
