import Verif.Model.Core
import Verif.Lemmas.Utils
import Verif.Lemmas.Factors

/-! Helper lemmas about `raiseLower` and `transformComponents`. -/

namespace PyOGRe
open Spec Finset
variable {K : Type}

/-- An array with two axes as a function of two numbers. -/
def Arr.mat [Zero K] (a : Arr K) (i j : Nat) : K := a.get [i, j]

theorem withAxes_single (J : List Nat) (i k : Nat) : withAxes J [i] [k] = J.set i k := by
  have := Arr.setAll_zip J [i] [k] (by simp) (by simp)
  rw [← this]; simp [Arr.setAll]

theorem dropAxes_single {α : Type} (J : List α) (i : Nat) : dropAxes [i] J = J.eraseIdx i := by
  unfold dropAxes
  suffices h : ∀ (J : List α) (m i : Nat), m ≤ i →
      ((J.zipIdx m).filter fun p => decide (p.2 ∉ [i])).map (·.1) = J.eraseIdx (i - m) by
    simpa using h J 0 i (Nat.zero_le _)
  intro J
  induction J with
  | nil => simp
  | cons x J ih =>
    intro m i hm
    rw [List.zipIdx_cons]
    by_cases h : m = i
    · subst h
      have h2 : ∀ p ∈ J.zipIdx (m + 1), decide (p.2 ∉ [m]) = true := by
        intro p hp
        have := List.mem_zipIdx hp
        simp; omega
      rw [List.filter_cons_of_neg (by simp), List.filter_eq_self.2 h2]
      simp
    · rw [List.filter_cons_of_pos (by simp [h]), List.map_cons, ih (m + 1) i (by omega)]
      obtain ⟨d, hd⟩ : ∃ d, i - m = d + 1 := ⟨i - m - 1, by omega⟩
      rw [hd, show i - (m + 1) = d by omega, List.eraseIdx_cons_succ]

theorem length_moveFirstTo (r i : Nat) (hi : i < r) : (moveFirstTo r i).length = r := by
  unfold moveFirstTo
  have h : ((List.range r).erase 0).length = r - 1 := by
    rw [List.length_erase_of_mem (by simp; omega)]; simp
  rw [List.length_insertIdx_of_le_length (by omega), h]; omega

theorem erase_range_zero (r : Nat) : (List.range (r + 1)).erase 0 = (List.range r).map (· + 1) := by
  rw [List.range_succ_eq_map]; simp

theorem getElem?_moveFirstTo (r i k : Nat) (hi : i < r) (hk : k < r) :
    (moveFirstTo r i)[k]? = some (if k < i then k + 1 else if k = i then 0 else k) := by
  obtain ⟨r, rfl⟩ : ∃ m, r = m + 1 := ⟨r - 1, by omega⟩
  unfold moveFirstTo
  rw [erase_range_zero, List.getElem?_insertIdx]
  simp only [List.getElem?_map, List.length_map, List.length_range]
  split_ifs with h1 h2 h3
  · rw [List.getElem?_range (by omega)]; rfl
  · rfl
  · omega
  · rw [List.getElem?_range (by omega)]; simp; omega

theorem perm_moveFirstTo (r i : Nat) (hi : i < r) : (moveFirstTo r i).Perm (List.range r) := by
  obtain ⟨r, rfl⟩ : ∃ m, r = m + 1 := ⟨r - 1, by omega⟩
  unfold moveFirstTo
  refine (List.perm_insertIdx _ _ (by rw [erase_range_zero]; simp; omega)).trans ?_
  exact (List.perm_cons_erase (by simp)).symm

theorem idxOf_moveFirstTo (r i k : Nat) (hi : i < r) (hk : k < r) :
    (moveFirstTo r i).idxOf (if k < i then k + 1 else if k = i then 0 else k) = k := by
  have hnd : (moveFirstTo r i).Nodup := (perm_moveFirstTo r i hi).nodup_iff.2 List.nodup_range
  have h := getElem?_moveFirstTo r i k hi hk
  obtain ⟨hk', hk2⟩ := List.getElem?_eq_some_iff.1 h
  rw [← hk2]
  exact hnd.idxOf_getElem k hk'

theorem moveFirstTo_position (r i : Nat) (hi : i < r) (J : List Nat) (hJ : J.length = r) :
    ((List.range r).map fun j => J.getD ((moveFirstTo r i).idxOf j) 0) =
      J.getD i 0 :: J.eraseIdx i := by
  apply List.ext_getElem?
  intro m
  rw [List.getElem?_map]
  by_cases hm : m < r
  · rw [List.getElem?_range hm]
    simp only [Option.map_some]
    cases m with
    | zero =>
      have := idxOf_moveFirstTo r i i hi hi
      simp only [lt_irrefl, if_false, if_true] at this
      rw [this]; simp
    | succ m =>
      rw [List.getElem?_cons_succ, List.getElem?_eraseIdx]
      by_cases h : m < i
      · have := idxOf_moveFirstTo r i m hi (by omega)
        rw [if_pos h] at this
        rw [this, if_pos h, List.getD_eq_getElem?_getD, List.getElem?_eq_getElem (by omega)]; rfl
      · have := idxOf_moveFirstTo r i (m + 1) hi hm
        rw [if_neg (by omega), if_neg (by omega)] at this
        rw [this, if_neg h, List.getD_eq_getElem?_getD, List.getElem?_eq_getElem (by omega)]; rfl
  · rw [List.getElem?_eq_none (by simp; omega), List.getElem?_eq_none]
    · rfl
    · rw [List.length_cons, List.length_eraseIdx_of_lt (by omega)]; omega

/-- One step of `_raise_lower`: a matrix acting on axis `i`. -/
theorem raiseLower_step [CommRing K] (E : Engine K) (hE : ∀ x, E.simp x = x) {n r : Nat} (hn : 0 < n)
    (M a : Arr K) (hM : M.shape = [n, n]) (ha : a.shape = List.replicate r n) (i : Nat) (hi : i < r) :
    ∃ c, (do let c ← contract E M a [(1, (i : Int))]; c.permutedims (moveFirstTo a.rank i)) = .ok c ∧
      c.WF ∧ c.shape = a.shape ∧ ∀ J, Valid a.shape J → c.get J = applyAxis n M.mat i a.get J := by
  have hr : a.rank = r := by simp [Arr.rank, ha]
  obtain ⟨c, hc, hw, hs, hg, -⟩ := contract_spec E hE hn (r1 := 2) (r2 := r) M a (by rw [hM]; rfl) ha
    [(1, i)] (by simp) (by simpa using hi) (by simp) (by simp)
  simp only [List.map_cons, List.map_nil, Nat.cast_one] at hc hg
  have hs' : c.shape = List.replicate r n := by rw [hs]; congr 1; simp
  have hcr : c.rank = r := by simp [Arr.rank, hs']
  have hperm : ((moveFirstTo r i).isPerm (List.range r)) = true :=
    List.isPerm_iff.2 (perm_moveFirstTo r i hi)
  have hsh : (moveFirstTo r i).map (fun k => c.shape.getD k 0) = List.replicate r n := by
    rw [List.eq_replicate_iff]
    refine ⟨by simp [length_moveFirstTo r i hi], ?_⟩
    intro b hb
    obtain ⟨k, hk, rfl⟩ := List.mem_map.1 hb
    have hk' : k < r := by simpa using (perm_moveFirstTo r i hi).mem_iff.1 hk
    rw [hs', List.getD_eq_getElem?_getD, List.getElem?_replicate]; simp [hk']
  refine ⟨Arr.ofFn (List.replicate r n) fun idx =>
      c.get ((List.range r).map fun j => idx.getD ((moveFirstTo r i).idxOf j) 0), ?_, ?_, ?_, ?_⟩
  · rw [hc]
    simp only [py_ok_bind, Arr.permutedims, hr, hcr, hperm, if_true, hsh]
  · exact Arr.wf_ofFn _ _
  · rw [ha]; rfl
  · intro J hJ
    rw [ha] at hJ
    rw [Arr.get_ofFn hJ]
    have hJl : J.length = r := by simpa using hJ.length_eq
    rw [moveFirstTo_position r i hi J hJl]
    have hx : J.getD i 0 < n := by
      have := hJ.lt_getD (k := i) (by simpa using hi)
      simpa [List.getD_eq_getElem?_getD, List.getElem?_replicate, hi] using this
    have h1 : Valid M.shape [J.getD i 0, 0] := by
      rw [hM, valid_cons, valid_cons, valid_nil]; exact ⟨hx, hn, rfl⟩
    have h2 := hg [J.getD i 0, 0] J h1 (by rw [ha]; exact hJ)
    rw [dropAxes_single, dropAxes_single] at h2
    simp only [List.eraseIdx_cons_succ, List.eraseIdx_cons_zero, List.cons_append,
      List.nil_append] at h2
    rw [h2]
    simp only [List.length_cons, List.length_nil, zero_add]
    rw [show (1 : Nat) = 0 + 1 from rfl, sum_map_tuples_succ]
    simp [tuples, applyAxis, withAxes_single, Arr.mat]

theorem raiseLower_loop [CommRing K] (E : Engine K) (hE : ∀ x, E.simp x = x) {n r : Nat} (hn : 0 < n)
    (Ms : List (Arr K)) (hMs : ∀ M ∈ Ms, M.shape = [n, n]) (m : Nat) (hm : m + Ms.length ≤ r)
    (a : Arr K) (ha : a.shape = List.replicate r n) (hwa : a.WF) :
    ∃ c, ((Ms.zipIdx m).zipIdx m).foldlM (fun acc p => do
        let c ← contract E p.1.1 acc [(1, (p.1.2 : Int))]
        c.permutedims (moveFirstTo acc.rank p.2)) a = .ok c ∧
      c.WF ∧ c.shape = List.replicate r n ∧
      ∀ J, Valid (List.replicate r n) J → c.get J = applyAxes n (Ms.map Arr.mat) m a.get J := by
  induction Ms generalizing m a with
  | nil => exact ⟨a, rfl, hwa, ha, fun J _ => rfl⟩
  | cons M Ms ih =>
    obtain ⟨c, hc, hcw, hcs, hcg⟩ := raiseLower_step E hE hn M a (hMs M (by simp)) ha m
      (by simp at hm; omega)
    obtain ⟨d, hd, hdw, hds, hdg⟩ := ih (fun M hM => hMs M (by simp [hM])) (m + 1)
      (by simp at hm; omega) c (by rw [hcs, ha]) hcw
    refine ⟨d, ?_, hdw, hds, ?_⟩
    · simp only [List.zipIdx_cons, List.foldlM_cons]
      rw [hc, py_ok_bind, hd]
    · intro J hJ
      rw [hdg J hJ, List.map_cons, applyAxes]
      -- the loop only reads positions in range
      have key : ∀ (Ns : List (Nat → Nat → K)) (p : Nat) (T T' : List Nat → K),
          (∀ J, Valid (List.replicate r n) J → T J = T' J) →
          ∀ J, Valid (List.replicate r n) J → applyAxes n Ns p T J = applyAxes n Ns p T' J := by
        intro Ns
        induction Ns with
        | nil => intro p T T' h J hJ; exact h J hJ
        | cons N Ns ihN =>
          intro p T T' h J hJ
          rw [applyAxes, applyAxes]
          refine ihN _ _ _ ?_ J hJ
          intro J hJ
          unfold applyAxis
          refine Finset.sum_congr rfl fun k hk => ?_
          rw [h]
          rw [valid_replicate] at hJ ⊢
          refine ⟨by simpa using hJ.1, ?_⟩
          intro x hx
          rcases List.mem_or_eq_of_mem_set hx with h | h
          · exact hJ.2 x h
          · subst h; simpa using hk
      refine key _ _ _ _ ?_ J hJ
      intro J hJ
      exact hcg J (by rw [ha]; exact hJ)

theorem shape_eye [Zero K] [One K] (n : Nat) : (eye n : Arr K).shape = [n, n] := rfl

theorem eye_mat [Zero K] [One K] (n i j : Nat) (hi : i < n) (hj : j < n) :
    (eye n : Arr K).mat i j = delta i j := by
  unfold Arr.mat eye
  rw [Arr.get_ofFn (by rw [valid_cons, valid_cons, valid_nil]; exact ⟨hi, hj, rfl⟩)]
  rfl

/-- The matrix `_raise_lower` uses for one axis. -/
def axisArr [Zero K] [One K] (g ginv : Arr K) (n : Nat) (a b : Int) : Arr K :=
  if a = -1 ∧ b = 1 then ginv else if a = 1 ∧ b = -1 then g else eye n

theorem axisMatrices_eq [Zero K] [One K] (g ginv comps : Arr K) (n : Nat)
    (hn : headDim comps.shape = n ∨ comps.shape = []) (src tgt : List Int)
    (hs : ∀ x ∈ src, x = 1 ∨ x = -1) (ht : ∀ x ∈ tgt, x = 1 ∨ x = -1)
    (hl : comps.shape = [] → src = []) :
    axisMatrices g ginv comps src tgt =
      (List.zipWith (axisArr g ginv n) src tgt).zipIdx := by
  unfold axisMatrices
  have key : ∀ (src tgt : List Int) (m : Nat), (∀ x ∈ src, x = 1 ∨ x = -1) →
      (∀ x ∈ tgt, x = 1 ∨ x = -1) → (src ≠ [] → headDim comps.shape = n) →
      (((src.zip tgt).zipIdx m).flatMap fun p =>
        (axisMatrix g ginv comps p.1.1 p.1.2).map fun m => (m, p.2)) =
      (List.zipWith (axisArr g ginv n) src tgt).zipIdx m := by
    intro src
    induction src with
    | nil => intros; simp
    | cons a src ih =>
      intro tgt m h1 h2 h3
      cases tgt with
      | nil => simp
      | cons b tgt =>
        rw [List.zip_cons_cons, List.zipIdx_cons, List.flatMap_cons,
          ih tgt (m + 1) (fun x hx => h1 x (by simp [hx])) (fun x hx => h2 x (by simp [hx]))
            (fun _ => h3 (by simp)),
          List.zipWith_cons_cons, List.zipIdx_cons]
        have hd := h3 (by simp)
        rcases h1 a (by simp) with rfl | rfl <;> rcases h2 b (by simp) with rfl | rfl <;>
          simp [axisMatrix, axisArr, hd]
  apply key _ _ _ hs ht
  intro hne
  rcases hn with h | h
  · exact h
  · exact absurd (hl h) hne

theorem axisArr_shape [Zero K] [One K] {g ginv : Arr K} {n : Nat} (hg : g.shape = [n, n])
    (hgi : ginv.shape = [n, n]) (a b : Int) : (axisArr g ginv n a b).shape = [n, n] := by
  unfold axisArr; split_ifs <;> simp_all [shape_eye]

theorem axisArr_mat [Zero K] [One K] (g ginv : Arr K) (n : Nat) (a b : Int) (i j : Nat) (hi : i < n)
    (hj : j < n) : (axisArr g ginv n a b).mat i j = indexFactor g.mat ginv.mat a b i j := by
  unfold axisArr indexFactor; split_ifs
  · rfl
  · rfl
  · exact eye_mat n i j hi hj

theorem mem_zipWith {α β γ : Type} {f : α → β → γ} {l : List α} {l' : List β} {x : γ}
    (h : x ∈ List.zipWith f l l') : ∃ a b, x = f a b := by
  rw [← List.map_uncurry_zip_eq_zipWith] at h
  obtain ⟨p, _, rfl⟩ := List.mem_map.1 h
  exact ⟨p.1, p.2, rfl⟩

theorem raiseLower_spec [CommRing K] (E : Engine K) (hE : ∀ x, E.simp x = x) {n : Nat} (hn : 0 < n)
    (g ginv comps : Arr K) (src tgt : List Int) (hg : g.shape = [n, n]) (hgi : ginv.shape = [n, n])
    (hs : ∀ x ∈ src, x = 1 ∨ x = -1) (ht : ∀ x ∈ tgt, x = 1 ∨ x = -1) (hl : tgt.length = src.length)
    (hc : comps.shape = List.replicate src.length n) (hw : comps.WF) :
    ∃ c, raiseLower E g ginv src tgt comps = .ok c ∧ c.WF ∧ c.shape = comps.shape ∧
      ∀ J, Valid comps.shape J →
        c.get J = applyFactors n (List.zipWith (indexFactor g.mat ginv.mat) src tgt) comps.get J := by
  have hax := axisMatrices_eq g ginv comps n (by
    cases src with
    | nil => right; simpa using hc
    | cons a src => left; simp [hc, List.replicate_succ, headDim]) src tgt hs ht (by
    intro h; rw [hc] at h; simpa using h)
  obtain ⟨c, h1, h2, h3, h4⟩ := raiseLower_loop E hE hn (r := src.length)
    (List.zipWith (axisArr g ginv n) src tgt) (by
      intro M hM
      obtain ⟨a, b, rfl⟩ := mem_zipWith hM
      exact axisArr_shape hg hgi a b) 0 (by simp) comps hc hw
  refine ⟨c.map E.simp, ?_, Arr.wf_map _ _, by rw [Arr.shape_map, h3, hc], ?_⟩
  · unfold raiseLower
    rw [hax, h1]; rfl
  · intro J hJ
    rw [hc] at hJ
    rw [Arr.map_id' h2 hE, h4 J hJ]
    have := applyAxes_eq n ((List.zipWith (axisArr g ginv n) src tgt).map Arr.mat) comps.get [] J (by
      rw [hJ.length_eq]; simp [hl])
    simp only [List.length_nil, List.nil_append] at this
    rw [this]
    apply applyFactors_congr_factors
    · exact (valid_replicate.1 hJ).2
    · rw [List.map_zipWith]
      clear * - hl
      induction src generalizing tgt with
      | nil => simp
      | cons a src ih =>
        cases tgt with
        | nil => simp
        | cons b tgt =>
          simp only [List.zipWith_cons_cons, List.forall₂_cons]
          exact ⟨fun i j hi hj => axisArr_mat g ginv n a b i j hi hj, ih tgt (by simpa using hl)⟩

end PyOGRe
