import Verif.Lemmas.Interpreter
import Mathlib.Data.List.Induction

/-!
# Reading nested lists and associations back
-/

namespace PyOGRe
open Spec

mutual
/-- The tree of the data. -/
def Data.node : Data → Node
  | .arith a => a.node
  | .text s => .str (quoted s)
  | .list l => .list (nodeEach l)
  | .assoc ks vs => .assoc (nodeEach ks) (nodeEach vs)
def nodeEach : List Data → List Node
  | [] => []
  | d :: l => d.node :: nodeEach l
end

/-! ### Commas -/

/-- Adding one more entry at the end. -/
theorem commas_concat (sp : List Tok) (b : List Tok) : ∀ {l : List (List Tok)}, l ≠ [] →
    commas sp (l ++ [b]) = commas sp l ++ .comma :: (sp ++ b)
  | [], h => absurd rfl h
  | [a], _ => rfl
  | a :: c :: l, _ => by
    have := commas_concat sp b (l := c :: l) (by simp)
    simp only [List.cons_append] at this ⊢
    rw [commas, this, commas]
    simp

theorem block_commas {sp : List Tok} (hsp : Gap sp) : ∀ {l : List (List Tok)}, l ≠ [] →
    (∀ a ∈ l, Block a) → Block (commas sp l)
  | [], h, _ => absurd rfl h
  | [a], _, h => h a (by simp)
  | a :: c :: l, _, h => by
    have h1 := block_commas hsp (l := c :: l) (by simp) (fun x hx => h x (List.mem_cons_of_mem _ hx))
    have := Block.join (t := .comma) (h a (by simp)) h1 gap_nil hsp rfl
    rw [List.append_nil] at this
    exact this

/-- `open a, b, c close`. -/
theorem block_enclosed {sp : List Tok} (hsp : Gap sp) {l : List (List Tok)} (h : ∀ a ∈ l, Block a) {o c : Tok}
    (ho : o.mark = true) (hc : c.mark = true) : Block (o :: (commas sp l ++ [c])) := by
  rcases l with _ | ⟨a, l⟩
  · exact (Block.single hc).prefix ho
  · exact ((block_commas hsp (by simp) h).suffix hc).prefix ho

theorem reads_items {sp : List Tok} (hsp : Gap sp) : ∀ (l : List (List Tok × Node)), l ≠ [] →
    (∀ p ∈ l, Reads .entry p.1 (.one p.2)) → Reads .items (commas sp (l.map Prod.fst)) (.many (l.map Prod.snd)) := by
  intro l
  induction l using List.reverseRecOn with
  | nil => intro h; exact absurd rfl h
  | append_singleton l p ih =>
    intro _ h
    rcases l with _ | ⟨q, l⟩
    · exact .item (h p (by simp))
    · have h1 := ih (by simp) (fun x hx => h x (List.mem_append_left _ hx))
      have h2 := Reads.items gap_nil hsp h1 (h p (by simp))
      rw [List.map_append, List.map_append]
      simp only [List.map_cons, List.map_nil] at h2 ⊢
      rw [commas_concat sp _ (by simp)]
      simpa using h2

theorem reads_list {sp : List Tok} (hsp : Gap sp) (l : List (List Tok × Node))
    (h : ∀ p ∈ l, Reads .entry p.1 (.one p.2)) :
    Reads .base (.lcurl :: (commas sp (l.map Prod.fst) ++ [.rcurl])) (.one (.list (l.map Prod.snd))) := by
  rcases l with _ | ⟨q, l⟩
  · exact .emptyList
  · have := Reads.list gap_nil gap_nil (reads_items hsp (q :: l) (by simp) h)
    simpa using this

/-- The text and the trees of a key and its value. -/
abbrev PairText := (List Tok × Node) × (List Tok × Node)

def PairText.text (sp : List Tok) (p : PairText) : List Tok := p.1.1 ++ sp ++ .arrow :: (sp ++ p.2.1)

theorem reads_pairs {sp : List Tok} (hsp : Gap sp) : ∀ (l : List PairText), l ≠ [] →
    (∀ p ∈ l, Reads .sum p.1.1 (.one p.1.2) ∧ Reads .sum p.2.1 (.one p.2.2)) →
    Reads .pairs (commas sp (l.map (PairText.text sp))) (.pairs (l.map (·.1.2)) (l.map (·.2.2))) := by
  intro l
  induction l using List.reverseRecOn with
  | nil => intro h; exact absurd rfl h
  | append_singleton l p ih =>
    intro _ h
    have hp := h p (by simp)
    rcases l with _ | ⟨q, l⟩
    · exact .pair hsp hsp hp.1 hp.2
    · have h1 := ih (by simp) (fun x hx => h x (List.mem_append_left _ hx))
      have h2 := Reads.pairs gap_nil hsp hsp hsp h1 hp.1 hp.2
      rw [List.map_append, List.map_append, List.map_append]
      simp only [List.map_cons, List.map_nil] at h2 ⊢
      rw [commas_concat sp _ (by simp)]
      simpa [PairText.text] using h2

theorem reads_assoc {sp : List Tok} (hsp : Gap sp) (l : List PairText)
    (h : ∀ p ∈ l, Reads .sum p.1.1 (.one p.1.2) ∧ Reads .sum p.2.1 (.one p.2.2)) :
    Reads .base (.lassoc :: (commas sp (l.map (PairText.text sp)) ++ [.rassoc]))
      (.one (.assoc (l.map (·.1.2)) (l.map (·.2.2)))) := by
  rcases l with _ | ⟨q, l⟩
  · exact .emptyAssoc
  · have := Reads.assoc gap_nil gap_nil (reads_pairs hsp (q :: l) (by simp) h)
    simpa using this

/-! ### The printed form -/

theorem writtenEach_eq (sp : List Tok) : ∀ l : List Data, writtenEach sp l = l.map (written sp)
  | [] => rfl
  | d :: l => by rw [writtenEach, writtenEach_eq sp l]; rfl

theorem nodeEach_eq : ∀ l : List Data, nodeEach l = l.map Data.node
  | [] => rfl
  | d :: l => by rw [nodeEach, nodeEach_eq l]; rfl

section
variable {K : Type} [Field K]

theorem meaningEach_eq (pow : K → K → K) (atom symbol : List Char → K) : ∀ l : List Data,
    meaningEach pow atom symbol l = l.map (meaning pow atom symbol)
  | [] => rfl
  | d :: l => by rw [meaningEach, meaningEach_eq pow atom symbol l]; rfl

theorem zip_fst {α β : Type} : ∀ {k : List α} {v : List β}, k.length = v.length → (k.zip v).map Prod.fst = k :=
  fun h => List.map_fst_zip (Nat.le_of_eq h)

theorem zip_snd {α β : Type} : ∀ {k : List α} {v : List β}, k.length = v.length → (k.zip v).map Prod.snd = v :=
  fun h => List.map_snd_zip (Nat.le_of_eq h.symm)

theorem written_ok {sp : List Tok} (hsp : Gap sp) {pow : K → K → K} {atom symbol : List Char → K} {d : Data}
    (h : Sensible pow atom symbol d) : Block (written sp d) ∧ Reads .sum (written sp d) (.one d.node) := by
  induction h with
  | arith h => exact ⟨by rw [written]; exact block_shown hsp _ 0 h, by rw [written]; exact reads_shown hsp _ 0⟩
  | text h =>
    rw [written]
    exact ⟨Block.str h, .ofTerm (.ofFactor (.ofBase (.lit _)))⟩
  | @list l _ ih =>
    rw [written, writtenEach_eq, Data.node, nodeEach_eq]
    refine ⟨block_enclosed hsp ?_ rfl rfl, .ofTerm (.ofFactor (.ofBase ?_))⟩
    · intro a ha
      obtain ⟨d, hd, rfl⟩ := List.mem_map.1 ha
      exact (ih d hd).1
    · have := reads_list hsp (l.map (fun d => (written sp d, d.node))) (by
        intro p hp
        obtain ⟨d, hd, rfl⟩ := List.mem_map.1 hp
        exact .ofSum (ih d hd).2)
      simpa [Function.comp_def] using this
  | @assoc ks vs _ _ hlen _ ihk ihv =>
    rw [written, writtenEach_eq, writtenEach_eq, Data.node, nodeEach_eq, nodeEach_eq]
    have e : List.zipWith (fun k v => k ++ sp ++ Tok.arrow :: (sp ++ v)) (ks.map (written sp)) (vs.map (written sp))
        = ((ks.zip vs).map (fun p => (((written sp p.1, p.1.node), (written sp p.2, p.2.node)) : PairText))).map
          (PairText.text sp) := by
      rw [List.zipWith_map, List.map_map, List.zip, List.map_zipWith]
      rfl
    rw [e]
    refine ⟨block_enclosed hsp ?_ rfl rfl, .ofTerm (.ofFactor (.ofBase ?_))⟩
    · intro a ha
      simp only [List.map_map, List.mem_map] at ha
      obtain ⟨p, hp, rfl⟩ := ha
      have hp' := List.of_mem_zip (a := p.1) (b := p.2) hp
      exact Block.join (ihk _ hp'.1).1 (ihv _ hp'.2).1 hsp hsp rfl
    · have := reads_assoc hsp ((ks.zip vs).map
        (fun p => (((written sp p.1, p.1.node), (written sp p.2, p.2.node)) : PairText))) (by
          intro q hq
          obtain ⟨p, hp, rfl⟩ := List.mem_map.1 hq
          have hp' := List.of_mem_zip (a := p.1) (b := p.2) hp
          exact ⟨(ihk _ hp'.1).2, (ihv _ hp'.2).2⟩)
      have e1 : (ks.zip vs).map (fun p => p.1.node) = ks.map Data.node := by
        rw [← zip_fst hlen, List.map_map, zip_fst hlen]; rfl
      have e2 : (ks.zip vs).map (fun p => p.2.node) = vs.map Data.node := by
        rw [← zip_snd hlen, List.map_map, zip_snd hlen]; rfl
      simp only [List.map_map, Function.comp_def] at this ⊢
      rw [e1, e2] at this
      exact this

variable [DecidableEq K]

theorem allOf_ok {R : Reader K} : ∀ {l : List Data} {f : Data → Val K},
    (∀ d ∈ l, visit R d.node = .ok (f d)) → allOf (visitEach R (l.map Data.node)) = .ok (l.map f)
  | [], _, _ => rfl
  | d :: l, f, h => by
    rw [List.map_cons, visitEach, allOf, h d (by simp), allOf_ok (fun x hx => h x (List.mem_cons_of_mem _ hx))]
    rfl

omit [Field K] in
theorem setKey_new : ∀ {d : List (Val K × Val K)} {k v : Val K}, (∀ p ∈ d, p.1.sameKey k = false) →
    setKey d k v = d ++ [(k, v)]
  | [], _, _, _ => rfl
  | p :: d, k, v, h => by
    rw [setKey, h p (by simp), if_neg (by simp), setKey_new (fun q hq => h q (List.mem_cons_of_mem _ hq))]; rfl

omit [Field K] in
theorem sameKey_iff {x y : Val K} : x.sameKey y = true ↔ SameKey x y := by
  cases x <;> cases y <;> simp [Val.sameKey, SameKey]

theorem dictOf_ok {R : Reader K} {f : Data → Val K} : ∀ {ks vs : List Data} {d : List (Val K × Val K)},
    (∀ x ∈ ks, visit R x.node = .ok (f x)) → (∀ x ∈ vs, visit R x.node = .ok (f x)) → ks.length = vs.length →
    (∀ x ∈ ks, (f x).hashable = true) →
    (d.map Prod.fst ++ ks.map f).Pairwise (fun x y => ¬ SameKey x y) →
    dictOf (visitEach R (ks.map Data.node)) (visitEach R (vs.map Data.node)) d =
      .ok (d ++ (ks.map f).zip (vs.map f))
  | [], [], d, _, _, _, _, _ => by simp [dictOf, visitEach]
  | k :: ks, v :: vs, d, hk, hv, hl, hh, hp => by
    rw [List.map_cons, List.map_cons, visitEach, visitEach, dictOf, hk k (by simp), hv v (by simp)]
    show (if (f k).hashable = true then _ else _) = _
    rw [if_pos (hh k (by simp)), setKey_new, dictOf_ok (fun x hx => hk x (List.mem_cons_of_mem _ hx))
      (fun x hx => hv x (List.mem_cons_of_mem _ hx)) (by simpa using hl)
      (fun x hx => hh x (List.mem_cons_of_mem _ hx))]
    · simp
    · simpa using hp
    · intro p hp'
      rw [List.pairwise_append] at hp
      have := hp.2.2 p.1 (List.mem_map_of_mem hp') (f k) (by simp)
      rw [← sameKey_iff] at this
      simpa using this

theorem dictOf_unhashable {R : Reader K} {f : Data → Val K} : ∀ {ks vs : List Data} {d : List (Val K × Val K)},
    (∀ x ∈ ks, visit R x.node = .ok (f x)) → (∀ x ∈ vs, visit R x.node = .ok (f x)) → ks.length = vs.length →
    (∃ x ∈ ks, (f x).hashable = false) →
    dictOf (visitEach R (ks.map Data.node)) (visitEach R (vs.map Data.node)) d = .error .typeError
  | [], [], d, _, _, _, h => by obtain ⟨x, hx, _⟩ := h; cases hx
  | k :: ks, v :: vs, d, hk, hv, hl, hh => by
    rw [List.map_cons, List.map_cons, visitEach, visitEach, dictOf, hk k (by simp), hv v (by simp)]
    show (if (f k).hashable = true then _ else _) = _
    rcases hf : (f k).hashable with _ | _
    · rw [if_neg (by simp)]
    · rw [if_pos rfl]
      refine dictOf_unhashable (fun x hx => hk x (List.mem_cons_of_mem _ hx))
        (fun x hx => hv x (List.mem_cons_of_mem _ hx)) (by simpa using hl) ?_
      obtain ⟨x, hx, hx'⟩ := hh
      rcases List.mem_cons.1 hx with rfl | hx
      · rw [hf] at hx'; cases hx'
      · exact ⟨x, hx, hx'⟩

theorem dataWordsEach_mem {l : List Data} {d : Data} (h : d ∈ l) : ∀ w ∈ dataWords d, w ∈ dataWordsEach l := by
  induction l with
  | nil => cases h
  | cons a l ih =>
    intro w hw
    rw [dataWordsEach, List.mem_append]
    rcases List.mem_cons.1 h with rfl | h
    · exact Or.inl hw
    · exact Or.inr (ih h w hw)

theorem visit_data (R : Reader K) (atom : List Char → K) (hp : ∀ b, R.pow b (-1) = b⁻¹) {d : Data}
    (h : Sensible R.pow atom R.symbol d) (hw : ∀ w ∈ dataWords d, R.atom w = .ok (atom w)) :
    visit R d.node = .ok (meaning R.pow atom R.symbol d) := by
  induction h with
  | arith _ => rw [Data.node, meaning]; exact visit_arith R atom hp _ hw
  | text h => rw [Data.node, visit, literalEval_quoted h, meaning]; rfl
  | @list l _ ih =>
    rw [Data.node, visit, nodeEach_eq, meaning, meaningEach_eq,
      allOf_ok (fun d hd => ih d hd (fun w hw' => hw w (by rw [dataWords]; exact dataWordsEach_mem hd w hw')))]
    rfl
  | @assoc ks vs _ _ hlen hpw ihk ihv =>
    have hk : ∀ d ∈ ks, visit R d.node = .ok (meaning R.pow atom R.symbol d) := fun d hd =>
      ihk d hd (fun w hw' => hw w (by rw [dataWords, List.mem_append]; exact Or.inl (dataWordsEach_mem hd w hw')))
    have hv : ∀ d ∈ vs, visit R d.node = .ok (meaning R.pow atom R.symbol d) := fun d hd =>
      ihv d hd (fun w hw' => hw w (by rw [dataWords, List.mem_append]; exact Or.inr (dataWordsEach_mem hd w hw')))
    rw [Data.node, visit, nodeEach_eq, nodeEach_eq, meaning, meaningEach_eq, meaningEach_eq]
    rw [meaningEach_eq] at hpw
    split_ifs with hall
    · rw [dictOf_ok hk hv hlen (by simpa using hall) (by simpa using hpw)]
      rfl
    · rw [dictOf_unhashable hk hv hlen (by simpa using hall)]
      simp only [allOf_ok hk, allOf_ok hv]
      rfl

end

end PyOGRe
