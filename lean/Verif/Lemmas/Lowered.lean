import Verif.Lemmas.First

/-! Helper lemmas: the transformation of lowered Christoffel symbols. -/

namespace PyOGRe
open Spec Finset
variable {K : Type} [CommRing K] {E : Engine K}

theorem inverse_transpose {n : Nat} {J Ji : Nat → Nat → K} (h : Inverse n J Ji) :
    Inverse n (fun i s => Ji s i) fun s m => J m s := by
  have hd : ∀ i j, delta i j = (delta j i : K) := fun i j => by
    unfold delta
    by_cases h : i = j
    · rw [if_pos h, if_pos h.symm]
    · rw [if_neg h, if_neg (Ne.symm h)]
  intro i j hi hj
  constructor
  · rw [hd, ← (h j i hj hi).1]
    exact sum_congr rfl fun s _ => mul_comm _ _
  · rw [hd, ← (h j i hj hi).2]
    exact sum_congr rfl fun s _ => mul_comm _ _

/-- The law with the inhomogeneous term of the raised symbols for the lowered ones: what is wrong. -/
theorem lowered_law {G : Ground K} {new : List Sym} {rules : List (Option (Sym × K))} {Jinv : Nat → Nat → K}
    {φ : K →+* K} (hX : Change E G.n G.syms new rules Jinv φ)
    (hI : Inverse G.n (chartJacobian E G.syms new rules) Jinv) (c' : Id') (T : List Nat → K) {i j k : Nat}
    (hi : i < G.n) (hj : j < G.n) (hk : k < G.n) :
    substAll E rules (applyFactors G.n ([-1, -1, -1].map (coordFactor (chartJacobian E G.syms new rules) Jinv))
      (fun I => ∑ s ∈ range G.n, G.g (I.getD 0 0) s * T [s, I.getD 1 0, I.getD 2 0]) [i, j, k] +
        ∑ l ∈ range G.n, Jinv i l * chartJacobian2 E G.syms new rules l j k) =
    ∑ s ∈ range G.n, (G.moved E c' new rules Jinv).g i s * christoffelLaw E G.n (chartJacobian E G.syms new rules) Jinv
        (chartJacobian2 E G.syms new rules) rules T s j k +
      substAll E rules (∑ l ∈ range G.n, (Jinv i l - ∑ m ∈ range G.n, chartJacobian E G.syms new rules m i * G.g m l) *
        chartJacobian2 E G.syms new rules l j k) := by
  set J := chartJacobian E G.syms new rules with hJ
  set JJ := chartJacobian2 E G.syms new rules with hJJ
  have h1 : coordFactor J Jinv 1 = Jinv := if_pos rfl
  have h2 : coordFactor J Jinv (-1) = fun j i => J i j := if_neg (by decide)
  set Y : Nat → K := fun q => ∑ m ∈ range G.n, ∑ p ∈ range G.n, J m j * (J p k * φ (T [q, m, p])) + JJ q j k with hY
  have hlaw : ∀ s ∈ range G.n, christoffelLaw E G.n J Jinv JJ rules T s j k = ∑ l ∈ range G.n, Jinv s l * Y l := by
    intro s hs
    unfold christoffelLaw
    rw [hX.subst, map_add, List.map_cons, List.map_cons, List.map_cons, List.map_nil, applyFactors_three, h1, h2]
    simp only [map_sum, map_mul]
    rw [← sum_add_distrib]
    refine sum_congr rfl fun l hl => ?_
    rw [hX.inv s l (mem_range.1 hs) (mem_range.1 hl), hX.jac2 l j k (mem_range.1 hl), hY]
    dsimp only
    rw [mul_add, mul_sum]
    congr 1
    refine sum_congr rfl fun m hm => ?_
    rw [mul_sum]
    refine sum_congr rfl fun p hp => ?_
    rw [hX.jac m j (mem_range.1 hm), hX.jac p k (mem_range.1 hp)]
  have hright : ∑ s ∈ range G.n, (G.moved E c' new rules Jinv).g i s * christoffelLaw E G.n J Jinv JJ rules T s j k =
      ∑ p ∈ range G.n, J p i * ∑ q ∈ range G.n, φ (G.g p q) * Y q := by
    rw [← raised_moves (J := fun i s => Jinv s i) (Ji := fun s m => J m s) (h := fun p q => φ (G.g p q))
      (inverse_transpose hI) Y i]
    refine sum_congr rfl fun s hs => ?_
    rw [moved_g hX, hlaw s hs]
  rw [hright, hX.subst, hX.subst, map_add, List.map_cons, List.map_cons, List.map_cons, List.map_nil, applyFactors_three, h2]
  simp only [map_sum, map_mul, map_sub]
  have hA : ∀ p ∈ range G.n, J p i * ∑ q ∈ range G.n, φ (G.g p q) * Y q =
      ∑ a ∈ range G.n, ∑ b ∈ range G.n, φ (J p i) * (φ (J a j) * (φ (J b k) * ∑ s ∈ range G.n, φ (G.g p s) * φ (T [s, a, b]))) +
      ∑ l ∈ range G.n, φ (J p i) * φ (G.g p l) * φ (JJ l j k) := by
    intro p hp
    rw [hX.jac p i (mem_range.1 hp), mul_sum]
    have : ∀ q ∈ range G.n, J p i * (φ (G.g p q) * Y q) = J p i * (φ (G.g p q) * ∑ m ∈ range G.n, ∑ r ∈ range G.n,
        J m j * (J r k * φ (T [q, m, r]))) + J p i * φ (G.g p q) * φ (JJ q j k) := fun q hq => by
      rw [hX.jac2 q j k (mem_range.1 hq), hY]
      ring
    rw [sum_congr rfl this, sum_add_distrib]
    congr 1
    simp only [mul_sum]
    rw [sum_comm]
    refine sum_congr rfl fun a ha => ?_
    rw [sum_comm]
    refine sum_congr rfl fun b hb => ?_
    refine sum_congr rfl fun s _ => ?_
    rw [hX.jac a j (mem_range.1 ha), hX.jac b k (mem_range.1 hb)]
    ring
  rw [sum_congr rfl hA, sum_add_distrib, add_assoc]
  congr 1
  rw [sum_comm, ← sum_add_distrib]
  refine sum_congr rfl fun l hl => ?_
  rw [← sum_mul]
  ring

variable [DecidableEq K] [Algebra ℚ K]

/-- Lowered Christoffel symbols that have been requested in the old coordinates can be requested in the new ones. -/
theorem lowered_ready (hE : EngineOK E) {G : Ground K} {V : View K} {w : World K} (hS : Scene G V w) {r : Id'} {D : TField K}
    (hv : InView G V r [1, -1, -1] (christoffelComps E G) D) {o : Obj K} (ho : w.objs[r]? = some o)
    (hk : ∃ o : Obj K, w.objs[r]? = some o ∧ o.kind = .christoffel ∧ o.coords = G.c) {c' : Id'} (hu : Unseen w r c')
    {new : List Sym} {rules : List (Option (Sym × K))} (hch : Charts w G.c c' G.syms new (some rules)) (hst : NoStale E w) :
    Does (getComponents E r (some G.c) (some [-1, -1, -1])) w fun _ w' => ∃ b, Scene G V w' ∧
      Known E w' .christoffel r G.c [-1, -1, -1] b ∧
      Agree G.n 3 b (fun I => ∑ s ∈ range G.n, G.g (I.getD 0 0) s * christoffelComps E G [s, I.getD 1 0, I.getD 2 0]) ∧
      Unseen w' r c' ∧ Charts w' G.c c' G.syms new (some rules) ∧ NoStale E w' := by
  obtain ⟨o', k1, k2, k3⟩ := hk
  rw [ho] at k1; cases k1
  have hix : D.ix.length = 3 := by rw [hv.cfg]; rfl
  have hcfg : Config D.ix.length [-1, -1, -1] := by rw [hix]; exact ⟨rfl, by decide⟩
  obtain ⟨o'', q1, hsh⟩ := hS.shows _ _ hv.view
  rw [ho] at q1; cases q1
  have hget : Does (getComponents E r (some G.c) (some [-1, -1, -1])) w _ :=
    Does.step (getObj_ok ho hsh.alive) (scene_get' hE.simp_eq hS hv.view hcfg)
  obtain ⟨a, w', e, ⟨h1, h2, h3⟩, h4⟩ := hget
  obtain ⟨o2, p1, p2⟩ := h2.get ho
  obtain ⟨-, -, o3, d, g1, g2, g3, g4⟩ := getComponents_stored (E := E) (i := r) (c := G.c) (ix := [-1, -1, -1]) e
  rw [p1] at g1; cases g1
  simp only [Obj.core, Prod.mk.injEq] at p2
  obtain ⟨f1, f2⟩ := scene_known (E := E) h1 hv.view hv.coords p1 (by rw [p2.1, k2]; decide) g3 g4
  rw [p2.1, k2] at f1
  refine ⟨a, w', e, a, h1, f1, ⟨f2.1, by rw [f2.2.1, hix], fun I hl hI => ?_⟩, ?_, ?_, ?_⟩
  · rw [f2.2.2 I (by rw [hix]; exact hl) hI]
    match I, hl with
    | [i, j, k], _ =>
      rw [comp_first hv.cfg rfl (by simp at hI ⊢; exact hI.2)]
      refine sum_congr rfl fun s hs => ?_
      rw [hv.val _ rfl (by simp at hI ⊢; exact ⟨mem_range.1 hs, hI.2⟩)]
      rfl
  · intro o4 ho4
    rw [p1] at ho4; cases ho4
    rw [h4 _ _ ho p1 c' ?_]
    · exact hu _ ho
    · rintro rfl
      obtain ⟨d', x1, -⟩ := hsh.stored
      rw [hu _ ho] at x1; cases x1
  · obtain ⟨⟨oc, c1, c2, c3, c4, c5⟩, oc', c1', c2', c3', c4'⟩ := hch
    obtain ⟨x, x1, x2⟩ := h2.get c1
    obtain ⟨y, y1, y2⟩ := h2.get c1'
    simp only [Obj.core, Prod.mk.injEq] at x2 y2
    exact ⟨⟨x, x1, by rw [x2.1, c2], by rw [x2.2.2.2.2.2.2.2.2, c3], by rw [x2.2.2.2.2.2.2.1, c4], by rw [x2.2.2.2.2.2.2.2.1, c5]⟩,
      y, y1, by rw [y2.1, c2'], by rw [y2.2.2.2.2.2.2.2.2, c3'], by rw [y2.2.2.2.2.2.2.1, c4']⟩
  · have := getComponents_safe (E := E) r (some G.c) (some [-1, -1, -1]) w hst
    rw [show getComponents E r (some G.c) (some [-1, -1, -1]) w = _ from e] at this
    exact this

end PyOGRe
