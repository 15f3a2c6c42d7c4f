import Verif.Lemmas.Written
import Verif.Spec.Calls

/-!
# Reading calls and special characters
-/

namespace PyOGRe
open Spec

/-! ### Arguments as Python text -/

/-- The text of the tree of an expression, as a Python expression. -/
def Arith.python : Arith → Python
  | .word w => .word w
  | .letter w => .word w
  | .neg a => .neg (.paren a.python)
  | .add a b => .paren (.add a.python b.python)
  | .sub a b => .paren (.sub a.python b.python)
  | .mul a b => .paren (.mul a.python b.python)
  | .div a b => .paren (.div a.python b.python)
  | .pow a b => .paren (.pow a.python b.python)

theorem repr_python : ∀ (a : Arith), letters a = [] → a.node.repr = a.python.text
  | .word w, _ => by simp only [Arith.node, Node.repr, Arith.python, Python.text]
  | .letter w, h => by simp [letters] at h
  | .neg a, h => by
    simp only [Arith.node, Node.repr, Arith.python, Python.text, repr_python a h]
  | .add a b, h | .sub a b, h | .mul a b, h | .div a b, h | .pow a b, h => by
    simp only [letters, List.append_eq_nil_iff] at h
    simp only [Arith.node, Node.repr, Arith.python, Python.text, repr_python a h.1, repr_python b h.2]

theorem legal_mono : ∀ (p : Python) {k l : Nat}, l ≤ k → p.Legal k → p.Legal l
  | .word _, _, _, _, _ => trivial
  | .paren _, _, _, _, h => h
  | .neg _, _, _, hl, h => ⟨hl.trans h.1, h.2⟩
  | .add _ _, _, _, hl, h => ⟨Nat.le_zero.1 (hl.trans (Nat.le_of_eq h.1)), h.2⟩
  | .sub _ _, _, _, hl, h => ⟨Nat.le_zero.1 (hl.trans (Nat.le_of_eq h.1)), h.2⟩
  | .mul _ _, _, _, hl, h => ⟨hl.trans h.1, h.2⟩
  | .div _ _, _, _, hl, h => ⟨hl.trans h.1, h.2⟩
  | .pow _ _, _, _, hl, h => ⟨hl.trans h.1, h.2⟩

theorem legal_python : ∀ (a : Arith), PositiveBases a →
    a.python.Legal 2 ∧ ((∀ c, a ≠ .neg c) → a.python.Legal 3)
  | .word w, _ => ⟨trivial, fun _ => trivial⟩
  | .letter w, _ => ⟨trivial, fun _ => trivial⟩
  | .neg a, h => ⟨⟨Nat.le_refl 2, legal_mono _ (k := 2) (l := 0) (by omega) (legal_python a h).1⟩, fun hn => absurd rfl (hn a)⟩
  | .add a b, h => by
    have h1 := legal_mono _ (l := 0) (by omega) (legal_python a h.1).1
    have h2 := legal_mono _ (l := 1) (by omega) (legal_python b h.2).1
    exact ⟨⟨rfl, h1, h2⟩, fun _ => ⟨rfl, h1, h2⟩⟩
  | .sub a b, h => by
    have h1 := legal_mono _ (l := 0) (by omega) (legal_python a h.1).1
    have h2 := legal_mono _ (l := 1) (by omega) (legal_python b h.2).1
    exact ⟨⟨rfl, h1, h2⟩, fun _ => ⟨rfl, h1, h2⟩⟩
  | .mul a b, h => by
    have h1 := legal_mono _ (l := 1) (by omega) (legal_python a h.1).1
    have h2 := (legal_python b h.2).1
    exact ⟨⟨Nat.zero_le _, h1, h2⟩, fun _ => ⟨Nat.zero_le _, h1, h2⟩⟩
  | .div a b, h => by
    have h1 := legal_mono _ (l := 1) (by omega) (legal_python a h.1).1
    have h2 := (legal_python b h.2).1
    exact ⟨⟨Nat.zero_le _, h1, h2⟩, fun _ => ⟨Nat.zero_le _, h1, h2⟩⟩
  | .pow a b, h => by
    have h1 := (legal_python a h.2.1).2 h.1
    have h2 := (legal_python b h.2.2).1
    exact ⟨⟨Nat.zero_le _, h1, h2⟩, fun _ => ⟨Nat.zero_le _, h1, h2⟩⟩

section
variable {K : Type} [Field K]

theorem value_python (pow : K → K → K) (atom symbol : List Char → K) : ∀ (a : Arith), letters a = [] →
    a.python.value pow atom = value pow atom symbol a
  | .word w, _ => rfl
  | .letter w, h => by simp [letters] at h
  | .neg a, h => by
    rw [Arith.python, Python.value, Python.value, value_python pow atom symbol a h, value]
  | .add a b, h | .sub a b, h | .mul a b, h | .div a b, h | .pow a b, h => by
    simp only [letters, List.append_eq_nil_iff] at h
    rw [Arith.python, Python.value, Python.value, value_python pow atom symbol a h.1,
      value_python pow atom symbol b h.2, value]

variable [DecidableEq K]

theorem sympifyEach_ok {R : Reader K} {f : Arith → K} : ∀ {l : List Arith},
    (∀ a ∈ l, sympifyNode R a.node = .ok (f a)) → sympifyEach R (l.map Arith.node) = .ok (l.map f)
  | [], _ => rfl
  | a :: l, h => by
    rw [List.map_cons, sympifyEach, h a (by simp), sympifyEach_ok (fun x hx => h x (List.mem_cons_of_mem _ hx))]
    rfl

end

theorem node_ne_pyList (a : Arith) : ∀ l, a.node ≠ .pyList l := by
  cases a <;> intro l h <;> cases h

theorem groupArgs_node (a : Arith) : groupArgs a.node = [a.node] := by
  cases a <;> rfl

theorem groupArgs_group : ∀ {l : List Arith}, l ≠ [] → groupArgs (group (l.map Arith.node)) = l.map Arith.node
  | [], h => absurd rfl h
  | [a], _ => groupArgs_node a
  | _ :: _ :: _, _ => rfl

/-! ### Names of functions -/

theorem sympyName_known : ∀ w ∈ knownFunctions.map Prod.fst,
    sympyName w = (knownFunctions.find? (fun p => p.1 == w)).map Prod.snd := by decide +kernel

theorem invertible_known : (∀ g ∈ invertible ++ ["Sec", "Csc", "Cot", "Sech", "Csch", "Coth", "Exp", "Log"],
    g.toList ∈ knownFunctions.map Prod.fst) ∧
    ∀ g ∈ invertible, "Arc".toList ++ g.toList ∈ knownFunctions.map Prod.fst := by decide +kernel

theorem sympyName_eq (w : List Char) :
    sympyName w = (knownFunctions.find? (fun p => p.1 == w)).map Prod.snd := by
  by_cases hw : w ∈ knownFunctions.map Prod.fst
  · exact sympyName_known w hw
  · have h1 : knownFunctions.find? (fun p => p.1 == w) = none := by
      rw [List.find?_eq_none]
      intro p hp he
      exact hw (List.mem_map.2 ⟨p, hp, by simpa using he⟩)
    rw [h1, sympyName, if_neg, if_neg]
    · rfl
    · rintro ⟨h3, hg⟩
      have := invertible_known.2 _ hg
      have e : "Arc".toList ++ (String.ofList (w.drop 3)).toList = w := by
        rw [← h3, String.toList_ofList, List.take_append_drop]
      exact hw (e ▸ this)
    · intro hg
      have := invertible_known.1 _ hg
      rw [String.toList_ofList] at this
      exact hw this

/-! ### Calls -/

theorem Block.call {sp : List Tok} (hsp : Gap sp) {w : List Char} (hw : Word w) {l : List (List Tok)} (hl : l ≠ [])
    (h : ∀ a ∈ l, Block a) : Block (.expr w :: .lbrace :: (commas sp l ++ [.rbrace])) := by
  have := Block.join (t := .lbrace) (Block.word hw) ((block_commas hsp hl h).suffix (t := .rbrace) rfl) gap_nil gap_nil rfl
  simpa using this

theorem Block.more {sp : List Tok} (hsp : Gap sp) {b : List Tok} (hb : Block b) {l : List (List Tok)} (hl : l ≠ [])
    (h : ∀ a ∈ l, Block a) : Block (b ++ .lbrace :: (commas sp l ++ [.rbrace])) := by
  have := Block.join (t := .lbrace) hb ((block_commas hsp hl h).suffix (t := .rbrace) rfl) gap_nil gap_nil rfl
  simpa using this

theorem reads_group {sp : List Tok} (hsp : Gap sp) {l : List (List Tok × Node)} (hl : l ≠ [])
    (h : ∀ p ∈ l, Reads .entry p.1 (.one p.2)) :
    Reads .groups (.lbrace :: (commas sp (l.map Prod.fst) ++ [.rbrace])) (.many [group (l.map Prod.snd)]) := by
  have := Reads.group gap_nil gap_nil (reads_items hsp l hl h)
  simpa using this

theorem reads_groups {sp : List Tok} (hsp : Gap sp) {ts : List Tok} {gs : List Node}
    (h0 : Reads .groups ts (.many gs)) {l : List (List Tok × Node)} (hl : l ≠ [])
    (h : ∀ p ∈ l, Reads .entry p.1 (.one p.2)) :
    Reads .groups (ts ++ .lbrace :: (commas sp (l.map Prod.fst) ++ [.rbrace]))
      (.many (gs ++ [group (l.map Prod.snd)])) := by
  have := Reads.groups gap_nil gap_nil h0 (reads_items hsp l hl h)
  simpa using this

/-- The arguments with their trees. -/
def argTexts (sp : List Tok) (l : List Arith) : List (List Tok × Node) := l.map fun a => (shown sp 0 a, a.node)

theorem argTexts_fst (sp : List Tok) (l : List Arith) : (argTexts sp l).map Prod.fst = l.map (shown sp 0) := by
  simp [argTexts, Function.comp_def]

theorem argTexts_snd (sp : List Tok) (l : List Arith) : (argTexts sp l).map Prod.snd = l.map Arith.node := by
  simp [argTexts, Function.comp_def]

theorem argTexts_reads {sp : List Tok} (hsp : Gap sp) (l : List Arith) :
    ∀ p ∈ argTexts sp l, Reads .entry p.1 (.one p.2) := by
  intro p hp
  obtain ⟨a, _, rfl⟩ := List.mem_map.1 hp
  exact .ofSum (reads_shown hsp a 0)

theorem callText_reads {sp : List Tok} (hsp : Gap sp) (name : List Char) {l : List Arith} (hl : l ≠ []) :
    Reads .base (callText sp name l) (.one (.func name [group (l.map Arith.node)])) := by
  have := reads_group hsp (l := argTexts sp l) (by simpa [argTexts] using hl) (argTexts_reads hsp l)
  rw [argTexts_fst, argTexts_snd] at this
  exact .call this

theorem callText_block {sp : List Tok} (hsp : Gap sp) {name : List Char} (hn : Word name) {l : List Arith} (hl : l ≠ [])
    (hw : ∀ a ∈ l, ∀ w ∈ words a ++ letters a, Word w) : Block (callText sp name l) := by
  refine Block.call hsp hn (by simpa using hl) ?_
  intro b hb
  obtain ⟨a, ha, rfl⟩ := List.mem_map.1 hb
  exact block_shown hsp a 0 (hw a ha)

section
variable {K : Type} [DecidableEq K] [Field K]

theorem sympifyNode_arith {R : Reader K} {atom : List Char → K} {a : Arith} (hl : letters a = [])
    (h : R.atom a.python.text = .ok (a.python.value R.pow atom)) :
    sympifyNode R a.node = .ok (value R.pow atom R.symbol a) := by
  rw [sympifyNode, repr_python a hl, h, value_python R.pow atom R.symbol a hl]

theorem visit_call (R : Reader K) {name : List Char} (hn : name ≠ "Derivative".toList) (atom : List Char → K)
    {l : List Arith} (hl : l ≠ []) (h : ∀ a ∈ l, sympifyNode R a.node = .ok (value R.pow atom R.symbol a)) {y : K}
    (hy : applied R name (l.map (value R.pow atom R.symbol)) = .ok y) :
    visit R (.func name [group (l.map Arith.node)]) = .ok (.num y) := by
  rw [visit, if_neg hn, callFunction, groupArgs_group hl, sympifyEach_ok h]
  rw [applied, sympyName_eq] at hy
  simp only [py_ok_bind]
  rcases hf : knownFunctions.find? (fun p => p.1 == name) with _ | p
  · rw [hf] at hy
    have hy' : R.function (.str name) (l.map (value R.pow atom R.symbol)) = .ok y := hy
    simp only [hf, hy']; rfl
  · rw [hf] at hy
    have hy' : R.builtin p.2 (l.map (value R.pow atom R.symbol)) = .ok y := hy
    simp only [hf, hy']; rfl

/-! ### Derivatives -/

/-- One variable of a derivative: the numeral of the order, the order, and the argument. -/
structure Slot where
  numeral : List Char
  order : Nat
  arg : Arith

theorem byEach_ok {R : Reader K} {f : Arith → K} : ∀ {l : List Slot},
    (∀ q ∈ l, rounds R (visit R (.expr q.numeral)) = .ok q.order ∧ sympifyNode R q.arg.node = .ok (f q.arg)) →
    byEach R (visitEach R (l.map fun q => .expr q.numeral)) (l.map fun q => q.arg.node) =
      .ok (l.flatMap fun q => List.replicate q.order (f q.arg))
  | [], _ => rfl
  | q :: l, h => by
    have hq := h q (by simp)
    rw [List.map_cons, List.map_cons, visitEach, byEach, hq.1]
    show (do let x ← sympifyNode R q.arg.node; let xs ← byEach R _ _; return List.replicate q.order x ++ xs : Py (List K)) = _
    rw [hq.2, byEach_ok (fun x hx => h x (List.mem_cons_of_mem _ hx))]
    rfl

theorem visit_derivative (R : Reader K) {f : Arith → K} {head : List Char} {F : K} (hF : R.atom head = .ok F)
    {l : List Slot} (hl : l ≠ [])
    (h : ∀ q ∈ l, rounds R (visit R (.expr q.numeral)) = .ok q.order ∧ sympifyNode R q.arg.node = .ok (f q.arg))
    {y z : K} (hy : R.function (.num F) (l.map fun q => f q.arg) = .ok y)
    (hz : R.diff y (l.flatMap fun q => List.replicate q.order (f q.arg)) = .ok z) :
    visit R (.func "Derivative".toList [group (l.map fun q => .expr q.numeral), .expr head,
      group (l.map fun q => q.arg.node)]) = .ok (.num z) := by
  have hs : sympifyEach R (l.map fun q => q.arg.node) = .ok (l.map fun q => f q.arg) := by
    have := sympifyEach_ok (R := R) (f := f) (l := l.map Slot.arg) (by
      intro a ha
      obtain ⟨q, hq, rfl⟩ := List.mem_map.1 ha
      exact (h q hq).2)
    simpa [Function.comp_def] using this
  have hg : groupArgs (group (l.map fun q => q.arg.node)) = l.map fun q => q.arg.node := by
    have := groupArgs_group (l := l.map Slot.arg) (by simpa using hl)
    simpa [Function.comp_def] using this
  have hhead : visit R (.expr head) = .ok (.num F) := by rw [visit, hF]; rfl
  rw [visit, if_pos rfl, visitEach, visitEach, visitEach, visitEach, callDerivative, hhead, hg, hs]
  show (do return .num (← (do let value ← R.function (.num F) _; _ : Py K)) : Py (Val K)) = _
  rw [hy]
  match l, hl, h, hz with
  | [q], _, h, hz =>
    have hq := h q (by simp)
    have e1 : group ([q].map fun q => q.arg.node) = q.arg.node := rfl
    have e2 : group ([q].map fun q => Node.expr q.numeral) = .expr q.numeral := rfl
    rw [e1, e2]
    have hz' : R.diff y (List.replicate q.order (f q.arg)) = .ok z := by simpa using hz
    have key : ∀ a : Node, (∀ l, a ≠ .pyList l) → sympifyNode R a = .ok (f q.arg) →
        (do return .num (← (match a with
          | .pyList l => match visitOrders R [.expr q.numeral, .expr head, a] with
            | none => .error .typeError
            | some os => do R.diff y (← byEach R os l)
          | a => do
            let k ← rounds R (visit R (.expr q.numeral))
            let x ← sympifyNode R a
            R.diff y (List.replicate k x) : Py K)) : Py (Val K)) = .ok (.num z) := by
      intro a ha hx
      cases a with
      | pyList l => exact absurd rfl (ha l)
      | _ => simp only [hq.1, py_ok_bind, hx, hz']; rfl
    exact key _ (node_ne_pyList _) hq.2
  | q :: r :: l, _, h, hz =>
    have := byEach_ok h
    simp only [List.map_cons] at this ⊢
    simp only [group, visitOrders, this, py_ok_bind, hz]
    rfl

end
end PyOGRe
