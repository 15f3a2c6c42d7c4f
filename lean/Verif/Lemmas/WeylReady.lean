import Verif.Lemmas.First
import Verif.Lemmas.Lasting

/-! Helper lemmas: the Weyl tensor can be requested in new coordinates. -/

namespace PyOGRe
open Spec
variable {K : Type} [CommRing K] [DecidableEq K] [Algebra ℚ K] {E : Engine K}

theorem Safe.computeWeyl (m : Id') (n : Nat) (a r s : Id') : Safe E (computeWeyl E m n a r s) := by
  unfold PyOGRe.computeWeyl
  exact Safe.bind (Safe.calcInit _ _) fun _ => Safe.bind (Safe.lift _) fun _ =>
    Safe.bind (Safe.productOf _ _ _ _) fun _ => Safe.bind (Safe.productOf _ _ _ _) fun _ =>
    Safe.bind (Safe.calcSub _ _) fun _ => Safe.bind (Safe.productOf _ _ _ _) fun _ =>
    Safe.bind (Safe.calcAddObj _ _) fun _ => Safe.bind (Safe.productOf _ _ _ _) fun _ =>
    Safe.bind (Safe.calcSub _ _) fun _ => Safe.bind (Safe.calcMul _ _) fun _ =>
    Safe.bind (Safe.calcAddObj _ _) fun _ => Safe.bind (Safe.lift _) fun _ =>
    Safe.bind (Safe.calcInit _ _) fun _ => Safe.bind (Safe.productOf _ _ _ _) fun _ =>
    Safe.bind (Safe.productOf _ _ _ _) fun _ => Safe.bind (Safe.calcSub _ _) fun _ =>
    Safe.bind (Safe.matmulTensors _ _) fun _ => Safe.bind (Safe.calcMul _ _) fun _ =>
    Safe.bind (Safe.calcAddObj _ _) fun _ => Safe.bind (Safe.calcResult _ _ _ _) fun _ =>
    Safe.bind (Safe.getComponents _ _ _) fun _ => Safe.bind (Safe.getObj _) fun _ => Safe.storeResult _ _ _ _ _ _ _

theorem Safe.calcWeyl (m : Id') : Safe E (calcWeyl E m) := by
  unfold PyOGRe.calcWeyl
  exact Safe.bind (Safe.requireMetric _) fun _ => Safe.bind (Safe.getObj _) fun _ => Safe.unlessNamed _
    (Safe.bind (Safe.getObj _) fun _ => Safe.bind (Safe.calcRiemann _) fun _ => Safe.bind (Safe.calcRicci _) fun _ =>
    Safe.bind (Safe.calcScalar _) fun _ => Safe.computeWeyl _ _ _ _ _)

theorem endsSingle_weyl (m : Id') (n : Nat) (a r s : Id') : EndsSingle (computeWeyl E m n a r s) := by
  unfold computeWeyl storeResult
  iterate 22 refine endsSingle_bind fun _ => ?_
  exact endsSingle_store

/-- As for the other tensors (`first_ready`). -/
theorem weyl_ready (hE : ∀ x, E.simp x = x) {G : Ground K} {V : View K} {w : World K} {Dm : TField K} (hS : Scene G V w)
    (hm : LowerMetric G V Dm) (hN : NamesOK E G V w Dm.name) (hn : 2 < G.n)
    (hsingle : ∀ r w', calcWeyl E G.m w = (.ok r, w') → Single w' r)
    (hs : NoStale E w) {c' : Id'} {new : List Sym} {rules : List (Option (Sym × K))}
    (hch : Charts w G.c c' G.syms new (some rules)) (hcc : c' ≠ G.c) (hct : ∀ o, w.objs[c']? = some o → o.name ≠ "TEMP") :
    Does (calcWeyl E G.m) w fun r w' => ∃ V' D o b, Scene G V' w' ∧ InView G V' r [-1, -1, -1, -1] (weylComps E G) D ∧
      w'.objs[r]? = some o ∧ o.alive = true ∧ o.indices = [-1, -1, -1, -1] ∧ Known E w' .tensor r G.c [-1, -1, -1, -1] b ∧
      Agree G.n 4 b (weylComps E G) ∧ Unseen w' r c' ∧ Charts w' G.c c' G.syms new (some rules) ∧ NoStale E w' := by
  obtain ⟨r, w', h1, V', D, h2, h3, h4, h5, ⟨o, h7, h8, h9⟩, h10, h11⟩ := provides_weyl hE hS hm hN hn
  obtain ⟨o', k1, hsh⟩ := h2.shows _ _ h10.view
  rw [h7] at k1; cases k1
  obtain ⟨d, e1, e2, e3, e4, e5⟩ := hsh.stored
  obtain ⟨b, hb⟩ := e4 h10.coords
  have hk : o.kind ≠ .metric := by rw [h8]; decide
  obtain ⟨f1, f2⟩ := scene_known (E := E) h2 h10.view h10.coords h7 hk e1 hb
  rw [h10.cfg, h8] at f1
  refine ⟨r, w', h1, V', D, o, b, h2, h10, h7, hsh.alive, by rw [hsh.indices, h10.cfg], f1, ?_, ?_, ?_, ?_⟩
  · rw [h10.cfg] at f2
    refine ⟨f2.1, f2.2.1, fun J hl hJ => ?_⟩
    rw [f2.2.2 J hl hJ, ← h10.cfg, comp_self (by exact hJ) (by rw [h10.cfg]; exact hl), h10.val J hl hJ]
  · intro o2 ho2
    obtain ⟨o3, g1, g2⟩ := hsingle r w' h1
    rw [ho2] at g1; cases g1
    rw [h7] at ho2; cases ho2
    exact g2 c' (by rw [hsh.coords, h10.coords]; exact hcc)
  · obtain ⟨⟨oc, c1, c2, c3, c4, c5⟩, oc', c1', c2', c3', c4'⟩ := hch
    have hl := (At.calcWeyl (T := false) (n := w.objs.length) (E := E) G.m w (le_refl _)).1
    rw [h1] at hl
    obtain ⟨o1, a1, a2⟩ := hl.2 G.c (List.getElem?_eq_some_iff.1 c1).1 _ c1
    obtain ⟨o2, b1, b2, -, b3, b4, -⟩ := h11 _ _ c1' c2' (hct _ c1')
    obtain ⟨o3, d1, d2, d3, -⟩ := h2.chart
    rw [a1] at d1; cases d1
    exact ⟨⟨o1, a1, a2.kind.trans c2, d3, a2.syms.trans c4, by rw [a2.trans]; exact c5⟩,
      o2, b1, b2.trans c2', b3.trans c3', b4.trans c4'⟩
  · have := Safe.calcWeyl (E := E) G.m w hs
    rw [h1] at this
    exact this

end PyOGRe
