import Verif.Lemmas.AnyLeibniz
import Verif.Lemmas.Bianchi
import Mathlib.Tactic.NoncommRing

/-! Helper lemmas: the Ricci identity and the second Bianchi identity for arbitrary symmetric connection coefficients, in terms
of `covariantAtOf`. -/

namespace PyOGRe
open Spec Finset
variable {K : Type} [CommRing K] [Algebra ℚ K] {E : Engine K} {G : Ground K}
  {Γ : Nat → Nat → Nat → K}

/-- The curvature for an index in position `p`. -/
theorem connOf_curvature (hC : Calculus E) (i j : Nat) {p : Int} (hp : p = 1 ∨ p = -1) (x k : Nat) :
    G.d E i (connOf Γ j p x k) - G.d E j (connOf Γ i p x k) +
      (∑ l ∈ range G.n, connOf Γ i p x l * connOf Γ j p l k - ∑ l ∈ range G.n, connOf Γ j p x l * connOf Γ i p l k) =
    if p = 1 then riemannOf E G Γ x k i j else -riemannOf E G Γ k x i j := by
  have hneg : ∀ i x, G.d E i (-x) = -G.d E i x := fun i x => by
    have := hC.add (G.syms.getD i "") x (-x)
    rw [add_neg_cancel, show E.diff (G.syms.getD i "") 0 = 0 from d_zero hC i] at this
    exact (neg_eq_of_add_eq_zero_right this.symm).symm
  rcases hp with rfl | rfl
  · simp only [connOf, if_true]
    unfold riemannOf
    ring
  · simp only [connOf, show ¬ ((-1 : Int) = 1) by decide, if_false, hneg, neg_mul_neg]
    unfold riemannOf
    have e1 : ∑ l ∈ range G.n, Γ l i x * Γ k j l =
        ∑ l ∈ range G.n, Γ k j l * Γ l i x := sum_congr rfl fun _ _ => mul_comm _ _
    have e2 : ∑ l ∈ range G.n, Γ l j x * Γ k i l =
        ∑ l ∈ range G.n, Γ k i l * Γ l j x := sum_congr rfl fun _ _ => mul_comm _ _
    rw [e1, e2]
    ring

/-- Two derivatives, in terms of the index numbers. -/
def twice (E : Engine K) (G : Ground K) (Γ : Nat → Nat → Nat → K) (L : Finset Sym) (F : (Sym → Nat) → K)
    (p : Sym → Int) (i j : Nat) (ρ : Sym → Nat) : K :=
  G.d E i (G.d E j (F ρ) + ∑ s ∈ L, ∑ k ∈ range G.n, connOf Γ j (p s) (ρ s) k * F (Function.update ρ s k)) +
    ∑ s ∈ L, ∑ k ∈ range G.n, connOf Γ i (p s) (ρ s) k * (G.d E j (F (Function.update ρ s k)) +
      ∑ t ∈ L, ∑ l ∈ range G.n, connOf Γ j (p t) (Function.update ρ s k t) l *
        F (Function.update (Function.update ρ s k) t l))

/-- One index: what the order of the derivatives changes. -/
def crossed (E : Engine K) (G : Ground K) (Γ : Nat → Nat → Nat → K) (L : Finset Sym) (F : (Sym → Nat) → K)
    (p : Sym → Int) (i j : Nat) (ρ : Sym → Nat) : K :=
  ∑ s ∈ L, ∑ t ∈ L.erase s, ∑ k ∈ range G.n, ∑ l ∈ range G.n,
    connOf Γ i (p s) (ρ s) k * connOf Γ j (p t) (ρ t) l * F (Function.update (Function.update ρ s k) t l)

theorem crossed_symm (L : Finset Sym) (F : (Sym → Nat) → K) (p : Sym → Int) (i j : Nat) (ρ : Sym → Nat) :
    crossed E G Γ L F p i j ρ = crossed E G Γ L F p j i ρ := by
  unfold crossed
  rw [sum_comm' (t' := L) (s' := fun t => L.erase t)]
  · refine sum_congr rfl fun t ht => sum_congr rfl fun s hs => ?_
    rw [sum_comm]
    refine sum_congr rfl fun l _ => sum_congr rfl fun k _ => ?_
    rw [Function.update_comm (mem_erase.1 hs).1]
    ring
  · intro x y
    simp only [mem_erase, ne_eq]
    constructor
    · rintro ⟨h1, h2, h3⟩; exact ⟨⟨fun h => h2 h.symm, h1⟩, h3⟩
    · rintro ⟨⟨h1, h2⟩, h3⟩; exact ⟨h2, fun h => h1 h.symm, h3⟩

theorem twice_eq (hC : Calculus E) (L : Finset Sym) (F : (Sym → Nat) → K) (p : Sym → Int) (i j : Nat)
    (ρ : Sym → Nat) : twice E G Γ L F p i j ρ = G.d E i (G.d E j (F ρ)) +
      ∑ s ∈ L, ∑ k ∈ range G.n, (G.d E i (connOf Γ j (p s) (ρ s) k) * F (Function.update ρ s k) +
        connOf Γ j (p s) (ρ s) k * G.d E i (F (Function.update ρ s k)) +
        connOf Γ i (p s) (ρ s) k * G.d E j (F (Function.update ρ s k))) +
      ∑ s ∈ L, ∑ k ∈ range G.n, (∑ l ∈ range G.n, connOf Γ i (p s) (ρ s) l * connOf Γ j (p s) l k) *
        F (Function.update ρ s k) + crossed E G Γ L F p i j ρ := by
  have hadd : ∀ x y, G.d E i (x + y) = G.d E i x + G.d E i y := hC.add _
  have hmul : ∀ x y, G.d E i (x * y) = G.d E i x * y + x * G.d E i y := hC.mul _
  have hsq : ∀ s ∈ L, ∑ k ∈ range G.n, connOf Γ i (p s) (ρ s) k * (∑ t ∈ L, ∑ l ∈ range G.n,
      connOf Γ j (p t) (Function.update ρ s k t) l * F (Function.update (Function.update ρ s k) t l)) =
      ∑ k ∈ range G.n, (∑ l ∈ range G.n, connOf Γ i (p s) (ρ s) l * connOf Γ j (p s) l k) *
        F (Function.update ρ s k) +
      ∑ t ∈ L.erase s, ∑ k ∈ range G.n, ∑ l ∈ range G.n, connOf Γ i (p s) (ρ s) k * connOf Γ j (p t) (ρ t) l *
        F (Function.update (Function.update ρ s k) t l) := by
    intro s hs
    have h1 : ∀ k, (∑ t ∈ L, ∑ l ∈ range G.n, connOf Γ j (p t) (Function.update ρ s k t) l *
        F (Function.update (Function.update ρ s k) t l)) =
        (∑ l ∈ range G.n, connOf Γ j (p s) k l * F (Function.update ρ s l)) +
        ∑ t ∈ L.erase s, ∑ l ∈ range G.n, connOf Γ j (p t) (ρ t) l *
          F (Function.update (Function.update ρ s k) t l) := by
      intro k
      rw [← Finset.add_sum_erase L _ hs]
      congr 1
      · exact sum_congr rfl fun l _ => by simp
      · exact sum_congr rfl fun t ht => sum_congr rfl fun l _ => by
          rw [Function.update_of_ne (mem_erase.1 ht).1]
    simp only [h1, mul_add, sum_add_distrib]
    congr 1
    · simp only [mul_sum, sum_mul]
      rw [sum_comm]
      exact sum_congr rfl fun _ _ => sum_congr rfl fun _ _ => by ring
    · simp only [mul_sum]
      rw [sum_comm]
      exact sum_congr rfl fun _ _ => sum_congr rfl fun _ _ => sum_congr rfl fun _ _ => by ring
  unfold twice crossed
  rw [hadd, d_sum hC]
  simp only [d_sum hC, hmul, mul_add, sum_add_distrib]
  rw [sum_congr rfl hsq]
  simp only [sum_add_distrib]
  ring

/-- The Ricci identity, without the index of the first derivative. -/
theorem twice_commutator (hC : Calculus E) (L : Finset Sym) (F : (Sym → Nat) → K) {p : Sym → Int} (hp : Positions p)
    (i j : Nat) (ρ : Sym → Nat) : twice E G Γ L F p i j ρ - twice E G Γ L F p j i ρ =
      ∑ s ∈ L, ∑ k ∈ range G.n, (if p s = 1 then riemannOf E G Γ (ρ s) k i j else -riemannOf E G Γ k (ρ s) i j) *
        F (Function.update ρ s k) := by
  have e : ∀ s ∈ L, ∀ k, (if p s = 1 then riemannOf E G Γ (ρ s) k i j else -riemannOf E G Γ k (ρ s) i j) *
      F (Function.update ρ s k) =
      (G.d E i (connOf Γ j (p s) (ρ s) k) * F (Function.update ρ s k) -
      G.d E j (connOf Γ i (p s) (ρ s) k) * F (Function.update ρ s k)) +
      ((∑ l ∈ range G.n, connOf Γ i (p s) (ρ s) l * connOf Γ j (p s) l k) * F (Function.update ρ s k) -
      (∑ l ∈ range G.n, connOf Γ j (p s) (ρ s) l * connOf Γ i (p s) l k) * F (Function.update ρ s k)) := by
    intro s _ k
    rw [← connOf_curvature hC i j (hp s)]
    ring
  rw [twice_eq hC, twice_eq hC, crossed_symm L F p j i, sum_congr rfl fun s hs => sum_congr rfl fun k _ => e s hs k]
  simp only [sum_add_distrib, sum_sub_distrib]
  rw [show G.d E j (G.d E i (F ρ)) = G.d E i (G.d E j (F ρ)) from hC.comm _ _ _]
  ring

/-- Two covariant derivatives. -/
theorem covariantAtOf_twice {a c : Sym} {l : List Sym} (ha : a ∉ l) (hac : a ≠ c)
    {T : (Sym → Int) → (Sym → Nat) → K} (hT : OnlyOn l T) {pos : Sym → Int} (hpa : pos a = -1) (ρ : Sym → Nat) :
    covariantAtOf E G Γ c (a :: l) (covariantAtOf E G Γ a l T) pos ρ = twice E G Γ l.toFinset (T pos) pos (ρ c) (ρ a) ρ -
      ∑ k ∈ range G.n, Γ k (ρ c) (ρ a) * covariantAtOf E G Γ a l T pos (Function.update ρ a k) := by
  rw [covariantAtOf_eq c, List.toFinset_cons, sum_insert (by simpa using ha)]
  have e1 : ∑ k ∈ range G.n, connOf Γ (ρ c) (pos a) (ρ a) k * covariantAtOf E G Γ a l T pos (Function.update ρ a k) =
      -∑ k ∈ range G.n, Γ k (ρ c) (ρ a) * covariantAtOf E G Γ a l T pos (Function.update ρ a k) := by
    rw [hpa, ← sum_neg_distrib]
    exact sum_congr rfl fun k _ => by unfold connOf; rw [if_neg (by decide), neg_mul]
  have e2 : ∀ s ∈ l.toFinset, ∑ k ∈ range G.n, connOf Γ (ρ c) (pos s) (ρ s) k *
      covariantAtOf E G Γ a l T pos (Function.update ρ s k) = ∑ k ∈ range G.n, connOf Γ (ρ c) (pos s) (ρ s) k *
      (G.d E (ρ a) (T pos (Function.update ρ s k)) + ∑ t ∈ l.toFinset, ∑ m ∈ range G.n,
        connOf Γ (ρ a) (pos t) (Function.update ρ s k t) m *
          T pos (Function.update (Function.update ρ s k) t m)) := by
    intro s hs
    refine sum_congr rfl fun k _ => ?_
    have hsa : a ≠ s := fun h => ha (by rw [h]; simpa using hs)
    rw [covariantAtOf_eq, Function.update_of_ne hsa]
  rw [e1, sum_congr rfl e2, covariantAtOf_eq]
  unfold twice
  ring

theorem covariantAtOf_update {a x : Sym} {l : List Sym} (hx : x ∉ l) (hxa : x ≠ a)
    {T : (Sym → Int) → (Sym → Nat) → K} (hT : OnlyOn l T) (pos : Sym → Int) (ρ : Sym → Nat) (k : Nat) :
    covariantAtOf E G Γ a l T pos (Function.update ρ x k) = covariantAtOf E G Γ a l T pos ρ := by
  have hne : ∀ s ∈ l, s ≠ x := fun s hs h => hx (h ▸ hs)
  rw [covariantAtOf_eq, covariantAtOf_eq, Function.update_of_ne hxa.symm]
  rw [hT pos pos (Function.update ρ x k) ρ fun s hs => ⟨rfl, Function.update_of_ne (hne s hs) _ _⟩]
  congr 1
  refine sum_congr rfl fun s hs => sum_congr rfl fun m _ => ?_
  have hs' : s ∈ l := by simpa using hs
  rw [Function.update_of_ne (hne s hs')]
  rw [hT pos pos (Function.update (Function.update ρ x k) s m) (Function.update ρ s m) fun t ht => ⟨rfl, ?_⟩]
  by_cases h : t = s
  · subst h; simp
  · rw [Function.update_of_ne h, Function.update_of_ne h, Function.update_of_ne (hne t ht)]

/-- `∇_k T` does not care what its lower label is called. -/
theorem covariantAtOf_rename {a c : Sym} {l : List Sym} (ha : a ∉ l) (hc : c ∉ l)
    {T : (Sym → Int) → (Sym → Nat) → K} (hT : OnlyOn l T) (pos : Sym → Int) {ρ ρ' : Sym → Nat} (h : ρ a = ρ' c)
    (hρ : ∀ s ∈ l, ρ s = ρ' s) : covariantAtOf E G Γ a l T pos ρ = covariantAtOf E G Γ c l T pos ρ' := by
  rw [covariantAtOf_eq, covariantAtOf_eq, h, hT pos pos ρ ρ' fun s hs => ⟨rfl, hρ s hs⟩]
  congr 1
  refine sum_congr rfl fun s hs => sum_congr rfl fun m _ => ?_
  have hs' : s ∈ l := by simpa using hs
  rw [hρ s hs', hT pos pos (Function.update ρ s m) (Function.update ρ' s m) fun t ht => ⟨rfl, ?_⟩]
  by_cases h : t = s
  · subst h; simp
  · rw [Function.update_of_ne h, Function.update_of_ne h, hρ t ht]

/-- The Ricci identity. -/
theorem ricci_identityOf (hC : Calculus E)
    (hs : ∀ l m n, l < G.n → m < G.n → n < G.n → Γ l m n = Γ l n m) {a c : Sym} {l : List Sym} (ha : a ∉ l) (hc : c ∉ l)
    (hac : a ≠ c) {T : (Sym → Int) → (Sym → Nat) → K} (hT : OnlyOn l T) {pos : Sym → Int} (hpos : Positions pos)
    (hpa : pos a = -1) (hpc : pos c = -1) {ρ : Sym → Nat} (hρ : Values G.n ρ) :
    covariantAtOf E G Γ c (a :: l) (covariantAtOf E G Γ a l T) pos ρ - covariantAtOf E G Γ a (c :: l) (covariantAtOf E G Γ c l T) pos ρ =
      ∑ s ∈ l.toFinset, ∑ k ∈ range G.n,
        (if pos s = 1 then riemannOf E G Γ (ρ s) k (ρ c) (ρ a) else -riemannOf E G Γ k (ρ s) (ρ c) (ρ a)) *
          T pos (Function.update ρ s k) := by
  rw [covariantAtOf_twice ha hac hT hpa, covariantAtOf_twice hc hac.symm hT hpc, ← twice_commutator hC _ _ hpos]
  have e : ∑ k ∈ range G.n, Γ k (ρ a) (ρ c) * covariantAtOf E G Γ c l T pos (Function.update ρ c k) =
      ∑ k ∈ range G.n, Γ k (ρ c) (ρ a) * covariantAtOf E G Γ a l T pos (Function.update ρ a k) := by
    refine sum_congr rfl fun k hk => ?_
    rw [hs k _ _ (by simpa using hk) (hρ a) (hρ c)]
    congr 1
    refine covariantAtOf_rename hc ha hT pos (by simp) fun s hs => ?_
    rw [Function.update_of_ne (fun h : s = c => hc (h ▸ hs)), Function.update_of_ne (fun h : s = a => ha (h ▸ hs))]
  rw [e]
  ring

/-! ## The second Bianchi identity -/

/-- Derivatives and the coefficients of a symmetric connection. -/
structure Geo.Conn (ι K : Type) [Fintype ι] [CommRing K] where
  d : ι → K → K
  add : ∀ k x y, d k (x + y) = d k x + d k y
  mul : ∀ k x y, d k (x * y) = d k x * y + x * d k y
  comm : ∀ k l x, d k (d l x) = d l (d k x)
  Γ : ι → Matrix ι ι K
  symm : ∀ l m n, Γ m l n = Γ n l m

namespace Geo.Conn
variable {ι K : Type} [Fintype ι] [CommRing K] (S : Geo.Conn ι K)

def hom (k : ι) : K →+ K where
  toFun := S.d k
  map_zero' := by have := S.add k 0 0; simpa using this
  map_add' := S.add k

theorem d_sub (k : ι) (x y : K) : S.d k (x - y) = S.d k x - S.d k y := (S.hom k).map_sub x y
theorem d_sum {α : Type} (k : ι) (s : Finset α) (f : α → K) : S.d k (∑ i ∈ s, f i) = ∑ i ∈ s, S.d k (f i) :=
  map_sum (S.hom k) f s

/-- The derivative of a matrix. -/
def D (k : ι) (A : Matrix ι ι K) : Matrix ι ι K := A.map (S.d k)

theorem D_add (k : ι) (A B : Matrix ι ι K) : S.D k (A + B) = S.D k A + S.D k B := by ext i j; exact S.add _ _ _
theorem D_sub (k : ι) (A B : Matrix ι ι K) : S.D k (A - B) = S.D k A - S.D k B := by ext i j; exact S.d_sub _ _ _
theorem D_mul (k : ι) (A B : Matrix ι ι K) : S.D k (A * B) = S.D k A * B + A * S.D k B := by
  ext i j
  simp only [D, Matrix.map_apply, Matrix.mul_apply, Matrix.add_apply, S.d_sum, S.mul, Finset.sum_add_distrib]
theorem D_comm (k l : ι) (A : Matrix ι ι K) : S.D k (S.D l A) = S.D l (S.D k A) := by ext i j; exact S.comm _ _ _

/-- The curvature. -/
def R (m n : ι) : Matrix ι ι K := S.D m (S.Γ n) - S.D n (S.Γ m) + S.Γ m * S.Γ n - S.Γ n * S.Γ m

theorem R_antisymm (m n : ι) : S.R m n = -S.R n m := by
  simp only [R]; abel

def B (k m n : ι) : Matrix ι ι K := S.D k (S.R m n) + S.Γ k * S.R m n - S.R m n * S.Γ k

theorem B_cyclic (k m n : ι) : S.B k m n + S.B m n k + S.B n k m = 0 := by
  simp only [B, R, D_add, D_sub, D_mul]
  rw [S.D_comm m n (S.Γ k), S.D_comm k n (S.Γ m), S.D_comm k m (S.Γ n)]
  noncomm_ring

/-- The covariant derivative of the curvature. -/
def cov (k m n : ι) : Matrix ι ι K := S.B k m n - ∑ l, S.Γ k l m • S.R l n - ∑ l, S.Γ k l n • S.R m l

/-- Second Bianchi identity. -/
theorem cov_cyclic (k m n : ι) : S.cov k m n + S.cov m n k + S.cov n k m = 0 := by
  have h := S.B_cyclic k m n
  have e : ∀ a b c, ∑ l, S.Γ a l b • S.R l c = -∑ l, S.Γ b l a • S.R c l := fun a b c => by
    rw [← Finset.sum_neg_distrib]
    refine Finset.sum_congr rfl fun l _ => ?_
    rw [S.symm l a b, S.R_antisymm, smul_neg]
  unfold cov
  rw [e k m n, e m n k, e n k m]
  rw [← h]
  abel

end Geo.Conn

/-- The connection `Γ`. -/
def geoConn (hC : Calculus E) (hs : ∀ l m n, l < G.n → m < G.n → n < G.n → Γ l m n = Γ l n m) :
    Geo.Conn (Fin G.n) K where
  d k := G.d E k
  add _ := hC.add _
  mul _ := hC.mul _
  comm _ _ := hC.comm _ _
  Γ m := fun l n => Γ l m n
  symm l m n := hs l m n l.2 m.2 n.2

theorem geoConn_riemann (hC : Calculus E) (hs : ∀ l m n, l < G.n → m < G.n → n < G.n → Γ l m n = Γ l n m)
    (r s m n : Fin G.n) : riemannOf E G Γ r s m n = (geoConn hC hs).R m n r s := by
  simp only [Geo.Conn.R, Matrix.sub_apply, Matrix.add_apply, Matrix.mul_apply]
  unfold riemannOf
  rw [sum_range, sum_range]
  rfl

theorem nablaOf_lawful (hi : Inverse G.n G.g G.gi) {D : TField K} (hD : Config D.ix.length D.ix) {a : Sym}
    {labels : List Sym} (ha : a ∉ labels) (hn : labels.Nodup) (hl : labels.length = D.ix.length) :
    Lawful G (a :: labels) ((nablaOf E G Γ D).at G (a :: labels)) := by
  refine lawful_at hi ⟨rfl, fun x hx => ?_⟩ (List.nodup_cons.2 ⟨ha, hn⟩) (by simp [nablaOf, hl])
  rcases List.mem_cons.1 hx with rfl | h
  · exact Or.inr rfl
  · exact hD.2 x h

/-- The covariant derivative of the curvature. -/
theorem covariantAtOf_riemann (hC : Calculus E)
    (hs : ∀ l m n, l < G.n → m < G.n → n < G.n → Γ l m n = Γ l n m) {a b c d e : Sym} (hn : [a, b, c, d].Nodup)
    {T : (Sym → Int) → (Sym → Nat) → K} {pos : Sym → Int} (hpa : pos a = 1) (hpb : pos b = -1) (hpc : pos c = -1)
    (hpd : pos d = -1) (hT : ∀ ρ, Values G.n ρ → T pos ρ = riemannOf E G Γ (ρ a) (ρ b) (ρ c) (ρ d)) {ρ : Sym → Nat}
    (hρ : Values G.n ρ) : covariantAtOf E G Γ e [a, b, c, d] T pos ρ =
      (geoConn hC hs).cov ⟨ρ e, hρ e⟩ ⟨ρ c, hρ c⟩ ⟨ρ d, hρ d⟩ ⟨ρ a, hρ a⟩ ⟨ρ b, hρ b⟩ := by
  simp only [List.nodup_cons, List.mem_cons, List.not_mem_nil, or_false, not_or] at hn
  obtain ⟨⟨h1, h2, h3⟩, ⟨h4, h5⟩, h6, -⟩ := hn
  have hR := geoConn_riemann hC hs
  have hΓ : ∀ l m n : Fin G.n, Γ l m n = (geoConn hC hs).Γ m l n := fun _ _ _ => rfl
  have e1 : ∑ k ∈ range G.n, Γ (ρ a) (ρ e) k * T pos (Function.update ρ a k) =
      ∑ k : Fin G.n, (geoConn hC hs).Γ ⟨ρ e, hρ e⟩ ⟨ρ a, hρ a⟩ k *
        (geoConn hC hs).R ⟨ρ c, hρ c⟩ ⟨ρ d, hρ d⟩ k ⟨ρ b, hρ b⟩ := by
    rw [sum_range]
    refine sum_congr rfl fun k _ => ?_
    rw [hT _ (values_update hρ a k.2), ← hΓ, ← hR, Function.update_self, Function.update_of_ne (Ne.symm h1),
      Function.update_of_ne (Ne.symm h2), Function.update_of_ne (Ne.symm h3)]
  have e2 : ∑ k ∈ range G.n, Γ k (ρ e) (ρ b) * T pos (Function.update ρ b k) =
      ∑ k : Fin G.n, (geoConn hC hs).R ⟨ρ c, hρ c⟩ ⟨ρ d, hρ d⟩ ⟨ρ a, hρ a⟩ k *
        (geoConn hC hs).Γ ⟨ρ e, hρ e⟩ k ⟨ρ b, hρ b⟩ := by
    rw [sum_range]
    refine sum_congr rfl fun k _ => ?_
    rw [hT _ (values_update hρ b k.2), ← hΓ, ← hR, Function.update_self, Function.update_of_ne h1,
      Function.update_of_ne (Ne.symm h4), Function.update_of_ne (Ne.symm h5), mul_comm]
  have e3 : ∑ k ∈ range G.n, Γ k (ρ e) (ρ c) * T pos (Function.update ρ c k) =
      ∑ k : Fin G.n, (geoConn hC hs).Γ ⟨ρ e, hρ e⟩ k ⟨ρ c, hρ c⟩ *
        (geoConn hC hs).R k ⟨ρ d, hρ d⟩ ⟨ρ a, hρ a⟩ ⟨ρ b, hρ b⟩ := by
    rw [sum_range]
    refine sum_congr rfl fun k _ => ?_
    rw [hT _ (values_update hρ c k.2), ← hΓ, ← hR, Function.update_self, Function.update_of_ne h2,
      Function.update_of_ne h4, Function.update_of_ne (Ne.symm h6)]
  have e4 : ∑ k ∈ range G.n, Γ k (ρ e) (ρ d) * T pos (Function.update ρ d k) =
      ∑ k : Fin G.n, (geoConn hC hs).Γ ⟨ρ e, hρ e⟩ k ⟨ρ d, hρ d⟩ *
        (geoConn hC hs).R ⟨ρ c, hρ c⟩ k ⟨ρ a, hρ a⟩ ⟨ρ b, hρ b⟩ := by
    rw [sum_range]
    refine sum_congr rfl fun k _ => ?_
    rw [hT _ (values_update hρ d k.2), ← hΓ, ← hR, Function.update_self, Function.update_of_ne h3,
      Function.update_of_ne h5, Function.update_of_ne h6]
  have e0 : G.d E (ρ e) (T pos ρ) = (geoConn hC hs).d ⟨ρ e, hρ e⟩
      ((geoConn hC hs).R ⟨ρ c, hρ c⟩ ⟨ρ d, hρ d⟩ ⟨ρ a, hρ a⟩ ⟨ρ b, hρ b⟩) := by
    rw [hT ρ hρ, ← hR]
    rfl
  have hF : ([a, b, c, d] : List Sym).toFinset = insert a (insert b (insert c {d})) := by simp
  unfold covariantAtOf
  rw [hF, sum_insert (by simp [h1, h2, h3]), sum_insert (by simp [h4, h5]), sum_insert (by simp [h6]), sum_singleton,
    hpa, hpb, hpc, hpd]
  simp only [connOf, if_true, show ¬ ((-1 : Int) = 1) by decide, if_false, neg_mul, sum_neg_distrib]
  rw [e0, e1, e2, e3, e4]
  unfold Geo.Conn.cov Geo.Conn.B
  simp only [Matrix.sub_apply, Matrix.add_apply, Matrix.mul_apply, Matrix.sum_apply, Matrix.smul_apply, smul_eq_mul]
  show _ = (geoConn hC hs).d _ _ + _ - _ - _ - _
  ring

/-- The second Bianchi identity. -/
theorem bianchi_identityOf (hC : Calculus E) (hi : Inverse G.n G.g G.gi)
    (hs : ∀ l m n, l < G.n → m < G.n → n < G.n → Γ l m n = Γ l n m) {a b c d e : Sym} (hn : [e, a, b, c, d].Nodup)
    {D : TField K} (hD : Config D.ix.length D.ix) (hix : D.ix = [1, -1, -1, -1])
    (hv : ∀ r s m n, r < G.n → s < G.n → m < G.n → n < G.n → D.val [r, s, m, n] = riemannOf E G Γ r s m n)
    {pos : Sym → Int} (hpos : Positions pos) {ρ : Sym → Nat} (hρ : Values G.n ρ) :
    (nablaOf E G Γ D).at G [e, a, b, c, d] pos ρ + (nablaOf E G Γ D).at G [c, a, b, d, e] pos ρ +
      (nablaOf E G Γ D).at G [d, a, b, e, c] pos ρ = 0 := by
  have hn' := hn
  simp only [List.nodup_cons, List.mem_cons, List.not_mem_nil, or_false, not_or] at hn'
  obtain ⟨⟨h1, h2, h3, h4⟩, ⟨h5, h6, h7⟩, ⟨h8, h9⟩, h10, -⟩ := hn'
  have nd : ∀ {x y z : Sym}, x ∉ [a, b, y, z] → [a, b, y, z].Nodup → (nablaOf E G Γ D).ix.length = 5 →
      Lawful G (x :: [a, b, y, z]) ((nablaOf E G Γ D).at G (x :: [a, b, y, z])) :=
    fun hx hy _ => nablaOf_lawful hi hD hx hy (by rw [hix]; rfl)
  have hl5 : (nablaOf E G Γ D).ix.length = 5 := by simp [nablaOf, hix]
  have n1 : e ∉ [a, b, c, d] := by simp [h1, h2, h3, h4]
  have n2 : c ∉ [a, b, d, e] := by simp [Ne.symm h6, Ne.symm h8, h10, Ne.symm h3]
  have n3 : d ∉ [a, b, e, c] := by simp [Ne.symm h7, Ne.symm h9, Ne.symm h4, Ne.symm h10]
  have m1 : [a, b, c, d].Nodup := by simp [h5, h6, h7, h8, h9, h10]
  have m2 : [a, b, d, e].Nodup := by simp [h5, h7, Ne.symm h1, h9, Ne.symm h2, Ne.symm h4]
  have m3 : [a, b, e, c].Nodup := by simp [h5, h6, Ne.symm h1, h8, Ne.symm h2, h3]
  have key : ∀ pos ρ, Positions pos → Values G.n ρ → pos a = 1 → pos b = -1 → pos c = -1 →
      pos d = -1 → pos e = -1 → (nablaOf E G Γ D).at G [e, a, b, c, d] pos ρ + (nablaOf E G Γ D).at G [c, a, b, d, e] pos ρ +
      (nablaOf E G Γ D).at G [d, a, b, e, c] pos ρ = 0 := by
    intro pos ρ hpos hρ pa pb pc pd pe
    have hval : ∀ y z, pos y = -1 → pos z = -1 → ∀ ρ, Values G.n ρ → D.at G [a, b, y, z] pos ρ =
        riemannOf E G Γ (ρ a) (ρ b) (ρ y) (ρ z) := by
      intro y z py pz ρ hρ
      unfold TField.at
      simp only [List.map_cons, List.map_nil, pa, pb, py, pz]
      rw [← hix, comp_self (by simp [hρ a, hρ b, hρ y, hρ z]) (by rw [hix]; rfl)]
      exact hv _ _ _ _ (hρ a) (hρ b) (hρ y) (hρ z)
    rw [nablaOf_at n1 m1 (by rw [hix]; rfl) pe (by simp [pa, pb, pc, pd, hix]) hρ, nablaOf_at n2 m2 (by rw [hix]; rfl) pc (by simp [pa, pb, pd, pe, hix]) hρ,
      nablaOf_at n3 m3 (by rw [hix]; rfl) pd (by simp [pa, pb, pe, pc, hix]) hρ,
      covariantAtOf_riemann hC hs m1 pa pb pc pd (hval c d pc pd) hρ,
      covariantAtOf_riemann hC hs m2 pa pb pd pe (hval d e pd pe) hρ,
      covariantAtOf_riemann hC hs m3 pa pb pe pc (hval e c pe pc) hρ]
    exact congrFun (congrFun ((geoConn hC hs).cov_cyclic ⟨ρ e, hρ e⟩ ⟨ρ c, hρ c⟩ ⟨ρ d, hρ d⟩) ⟨ρ a, hρ a⟩) ⟨ρ b, hρ b⟩
  have hL : Lawful G [e, a, b, c, d] fun pos ρ => (nablaOf E G Γ D).at G [e, a, b, c, d] pos ρ +
      (nablaOf E G Γ D).at G [c, a, b, d, e] pos ρ + (nablaOf E G Γ D).at G [d, a, b, e, c] pos ρ := by
    refine lawful_add (lawful_add (nd n1 m1 hl5) (lawful_subset (nd n2 m2 hl5) ?_)) (lawful_subset (nd n3 m3 hl5) ?_)
    · intro s hs'; simp only [List.mem_cons, List.not_mem_nil, or_false] at hs' ⊢; tauto
    · intro s hs'; simp only [List.mem_cons, List.not_mem_nil, or_false] at hs' ⊢; tauto
  have hO : OnlyOn [e, a, b, c, d] fun pos ρ => (nablaOf E G Γ D).at G [e, a, b, c, d] pos ρ +
      (nablaOf E G Γ D).at G [c, a, b, d, e] pos ρ + (nablaOf E G Γ D).at G [d, a, b, e, c] pos ρ := by
    intro p p' r r' h
    have h' : ∀ l : List Sym, (∀ s ∈ l, s ∈ [e, a, b, c, d]) →
        (nablaOf E G Γ D).at G l p r = (nablaOf E G Γ D).at G l p' r' := fun l hl =>
      onlyOn_at _ l p p' r r' fun s hs' => h s (hl s hs')
    dsimp only
    rw [h' [e, a, b, c, d] fun _ h => h, h' [c, a, b, d, e], h' [d, a, b, e, c]]
    · intro s hs'; simp only [List.mem_cons, List.not_mem_nil, or_false] at hs' ⊢; tauto
    · intro s hs'; simp only [List.mem_cons, List.not_mem_nil, or_false] at hs' ⊢; tauto
  have hz : Lawful G [e, a, b, c, d] fun _ _ => (0 : K) := by
    intro s _ pos ρ x _ _ _
    simp
  refine lawful_ext (pos0 := fun s => if s = a then 1 else -1) hL hz hO (fun _ _ _ _ _ _ _ => rfl) ?_ ?_ hpos hρ
  · intro s; dsimp only; split_ifs <;> simp
  · intro ρ hρ
    exact key _ ρ (by intro s; dsimp only; split_ifs <;> simp) hρ (by simp) (by simp [Ne.symm h5])
      (by simp [Ne.symm h6]) (by simp [Ne.symm h7]) (by simp [h1])

end PyOGRe
