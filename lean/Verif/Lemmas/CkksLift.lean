import Verif.Model.CkksMul
import Verif.Lemmas.CkksKsk
import Verif.Props.Bat
import Mathlib.Data.Nat.ChineseRemainder

/-! # Lemmas for key switching: integer polynomials behind residue matrices -/

namespace Verif.CkksMul
open Verif.Barrett Verif.NttBat Verif.Slots Verif.CkksKeys Verif.Crt Verif.Props

/-! ## Integer negacyclic products -/

/-- The negacyclic product of integer polynomials. -/
def imul (k : Nat) (a b : Nat → Int) : Nat → Int := fun p =>
  if h : p < 2 ^ k then Nega.mul (fun i : Fin (2 ^ k) => a i) (fun i : Fin (2 ^ k) => b i) ⟨p, h⟩ else 0

theorem shift_cast {N q : Nat} (e : Nat) (a : Fin N → Int) (i : Fin N) :
    ((Nega.shift e a i : Int) : ZMod q) = Nega.shift e (fun j => (a j : ZMod q)) i := by
  unfold Nega.shift
  split_ifs <;> simp

theorem shift_abs {N : Nat} (e : Nat) (a : Fin N → Int) (A : Int) (hA : 0 ≤ A) (h : ∀ i, |a i| ≤ A) (i : Fin N) :
    |Nega.shift e a i| ≤ A := by
  unfold Nega.shift
  split_ifs
  · exact h _
  · rw [abs_neg]; exact h _
  · simpa using hA

theorem polyOf_imul (k q : Nat) (a b : Nat → Int) : polyOf k q (imul k a b) = polyOf k q a * polyOf k q b := by
  unfold polyOf
  rw [← Nega.ev_mul]
  congr 1
  funext i
  unfold imul
  rw [dif_pos i.isLt]
  unfold Nega.mul
  rw [Int.cast_sum]
  apply Finset.sum_congr rfl
  intro j _
  rw [Int.cast_mul, shift_cast]

theorem imul_abs (k : Nat) (a b : Nat → Int) (A B : Int) (hA : 0 ≤ A) (hB : 0 ≤ B)
    (ha : ∀ p, p < 2 ^ k → |a p| ≤ A) (hb : ∀ p, p < 2 ^ k → |b p| ≤ B) (p : Nat) : |imul k a b p| ≤ 2 ^ k * A * B := by
  unfold imul
  split_ifs with h
  · unfold Nega.mul
    refine (Finset.abs_sum_le_sum_abs _ _).trans ?_
    have h1 : ∀ i ∈ (Finset.univ : Finset (Fin (2 ^ k))),
        |(b i) * Nega.shift (i : Nat) (fun i : Fin (2 ^ k) => a i) ⟨p, h⟩| ≤ A * B := by
      intro i _
      rw [abs_mul, mul_comm]
      exact mul_le_mul (shift_abs _ _ A hA (fun j => ha j j.isLt) _) (hb i i.isLt) (abs_nonneg _) hA
    refine (Finset.sum_le_card_nsmul _ _ _ h1).trans ?_
    rw [Finset.card_univ, Fintype.card_fin, nsmul_eq_mul]
    push_cast
    rw [mul_assoc]
  · rw [abs_zero]; positivity

theorem polyOf_zero (k q : Nat) : polyOf k q (fun _ => 0) = 0 := by
  unfold polyOf
  have : (fun i : Fin (2 ^ k) => ((0 : Int) : ZMod q)) = fun _ => 0 := by funext; simp
  rw [this, Nega.ev_zero]

theorem polyOf_sum {ι : Type} (k q : Nat) (s : Finset ι) (f : ι → Nat → Int) :
    polyOf k q (fun p => ∑ j ∈ s, f j p) = ∑ j ∈ s, polyOf k q (f j) := by
  unfold polyOf
  rw [← Nega.ev_sum]
  congr 1
  funext i
  simp

/-! ## Basis conversion of whole matrices -/

theorem exists_crt (original : List Nat) (hco : original.Pairwise Nat.Coprime) (hpos : ∀ m ∈ original, 0 < m)
    (c : Nat → Nat) (hc : ∀ i, i < original.length → c i < original.getD i 0) :
    ∃ x, x < original.prod ∧ (List.range original.length).map c = original.map (fun q => x % q) ∧
      ∀ i, i < original.length → x % original.getD i 0 = c i := by
  have hco' : (List.range original.length).Pairwise (fun i j => Nat.Coprime (original.getD i 0) (original.getD j 0)) := by
    rw [List.pairwise_iff_getElem] at hco ⊢
    intro i j hi hj hij
    simp only [List.length_range] at hi hj
    rw [List.getElem_range, List.getElem_range, List.getD_eq_getElem _ _ hi, List.getD_eq_getElem _ _ hj]
    exact hco i j hi hj hij
  obtain ⟨y, hy⟩ := Nat.chineseRemainderOfList c (fun i => original.getD i 0) (List.range original.length) hco'
  have hprod : 0 < original.prod := by rw [← product_eq]; exact product_pos hpos
  have key : ∀ i, i < original.length → y % original.prod % original.getD i 0 = c i := by
    intro i hi
    rw [Nat.mod_mod_of_dvd _ (List.dvd_prod (getD_mem hi))]
    have := hy i (List.mem_range.2 hi)
    unfold Nat.ModEq at this
    rw [this, Nat.mod_eq_of_lt (hc i hi)]
  refine ⟨y % original.prod, Nat.mod_lt _ hprod, ?_, key⟩
  apply List.ext_getElem (by simp)
  intro i h1 h2
  have hi : i < original.length := by simpa using h2
  rw [List.getElem_map, List.getElem_map, List.getElem_range, ← key i hi, List.getD_eq_getElem _ _ hi]

/-- The conversion of a matrix of residues: one integer polynomial `D`, congruent to the input modulo the original
moduli and to the output modulo the target moduli, with coefficients below `#original * ∏ original`. -/
theorem basisChangeMat_spec (n : Nat) (original target : List Nat)
    (hne : original ≠ []) (hco : original.Pairwise Nat.Coprime)
    (ho : ∀ q ∈ original, GoodModulus q) (ht : ∀ q ∈ target, GoodModulus q)
    (hK : ∀ q ∈ target, 1020 * original.length ≤ 2 ^ Nat.clog 2 q) (hK2 : original.length * (4 * 255 ^ 2) < 2 ^ 32)
    (c : Mat) (hc : ∀ i, i < original.length → ∀ p, p < n → c i p < original.getD i 0) :
    ∃ (conv : Mat) (D : Nat → Nat), basisChangeMat n original target c = .ok conv ∧
      (∀ p, p < n → D p < original.length * original.prod) ∧
      (∀ i, i < original.length → ∀ p, p < n → D p % original.getD i 0 = c i p) ∧
      ∀ j, j < target.length → ∀ p, p < n → conv j p = D p % target.getD j 0 := by
  have hpos : ∀ m ∈ original, 0 < m := fun m hm => by have := (ho m hm).pos; omega
  have hcol : ∀ p, p < n → ∃ (d : Nat), d < original.length * original.prod ∧
      (∀ i, i < original.length → d % original.getD i 0 = c i p) ∧
      Bat.basisChange original target ((List.range original.length).map (fun i => c i p)) =
        .ok (target.map (fun m => d % m)) := by
    intro p hp
    obtain ⟨x, hx, hx2, hx3⟩ := exists_crt original hco hpos (fun i => c i p) (fun i hi => hc i hi p hp)
    obtain ⟨out, u, h1, h2, h3⟩ := C36_basis_change original target x hne hco ho ht hK hK2 hx
    refine ⟨x + u * original.prod, ?_, ?_, ?_⟩
    · calc x + u * original.prod < original.prod + u * original.prod := by omega
        _ = (u + 1) * original.prod := by ring
        _ ≤ original.length * original.prod := Nat.mul_le_mul_right _ h2
    · intro i hi
      have hd : original.getD i 0 ∣ u * original.prod := (List.dvd_prod (getD_mem hi)).mul_left u
      rw [Nat.add_mod, Nat.mod_eq_zero_of_dvd hd, Nat.add_zero, Nat.mod_mod, hx3 i hi]
    · rw [hx2, h1, h3]
  choose! D hD using hcol
  obtain ⟨cols, h1, h2, h3⟩ := mapM_ok (fun (p : Nat) =>
    Bat.basisChange original target ((List.range original.length).map (fun i => c i p))) (List.range n)
    (fun p hp => ⟨_, (hD p (List.mem_range.1 hp)).2.2⟩)
  refine ⟨fun j p => (cols.getD p []).getD j 0, D, ?_, fun p hp => (hD p hp).1, fun i hi p hp => (hD p hp).2.1 i hi, ?_⟩
  · unfold basisChangeMat
    simp only [h1, bind, Except.bind, pure, Except.pure]
  · intro j hj p hp
    have hp1 : p < (List.range n).length := by simpa using hp
    have hp2 : p < cols.length := by rw [h2]; exact hp1
    have := h3 p hp1 hp2
    rw [List.getElem_range, (hD p hp).2.2] at this
    simp only
    rw [List.getD_eq_getElem _ _ hp2, ← Except.ok.inj this, List.getD_eq_getElem _ _ (by simpa using hj),
      List.getElem_map, List.getD_eq_getElem _ _ hj]

variable {kr kc : Nat}

/-- Moduli for which the transforms and the conversions are exact. -/
structure Basis (kr kc : Nat) (q p : List Nat) : Prop where
  four : ∀ m ∈ q ++ p, FourStep kr kc m
  nodup : (q ++ p).Nodup
  size : ∀ m ∈ q ++ p, 1020 * (q ++ p).length ≤ 2 ^ Nat.clog 2 m
  size32 : (q ++ p).length * (4 * 255 ^ 2) < 2 ^ 32
  neQ : q ≠ []
  neP : p ≠ []

theorem Basis.at {q p : List Nat} (h : Basis kr kc q p) {i : Nat} (hi : i < (q ++ p).length) :
    FourStep kr kc ((q ++ p).getD i 0) := h.four _ (getD_mem hi)

theorem Basis.moduli {q p : List Nat} (h : Basis kr kc q p) : Moduli (kr + kc) (q ++ p) :=
  ⟨fun m hm => FourStep.nttPrime (h.four m hm), fun m hm => by have := (h.four m hm).good.lt; omega⟩

theorem Basis.left {q p : List Nat} (h : Basis kr kc q p) : Moduli (kr + kc) q :=
  ⟨fun m hm => h.moduli.ntt m (List.mem_append_left _ hm), fun m hm => h.moduli.lt m (List.mem_append_left _ hm)⟩

theorem Basis.right {q p : List Nat} (h : Basis kr kc q p) : Moduli (kr + kc) p :=
  ⟨fun m hm => h.moduli.ntt m (List.mem_append_right _ hm), fun m hm => h.moduli.lt m (List.mem_append_right _ hm)⟩

theorem pairwise_coprime {l : List Nat} (hp : ∀ m ∈ l, m.Prime) (hn : l.Nodup) : l.Pairwise Nat.Coprime := by
  refine List.Pairwise.imp_of_mem ?_ hn
  intro a b ha hb hab
  exact (Nat.coprime_primes (hp a ha) (hp b hb)).2 hab

/-- The tables of every modulus. -/
def TablesOf (kr kc : Nat) (ms : List Nat) (T : Nat → Tables) : Prop :=
  ∀ i, i < ms.length → precomputeTables (2 ^ kr) (2 ^ kc) (ms.getD i 0) = .ok (T i)

/-- Conversion of the limbs `sel` (transformed back) to the limbs `tgt` (transformed forward). -/
theorem convert_spec {q p : List Nat} (h : Basis kr kc q p) (T : Nat → Tables) (hT : TablesOf kr kc (q ++ p) T)
    (sel tgt : List Nat) (hne : sel ≠ []) (hnd : sel.Nodup) (hsel : ∀ i ∈ sel, i < (q ++ p).length)
    (htgt : ∀ i ∈ tgt, i < (q ++ p).length) (last : Mat)
    (hlast : ∀ i ∈ sel, ∀ t, t < 2 ^ (kr + kc) → last i t < (q ++ p).getD i 0)
    (original target : List Nat) (horig : original = sel.map (fun i => (q ++ p).getD i 0))
    (htarget : target = tgt.map (fun i => (q ++ p).getD i 0))
    (coeffs : Mat) (hco : ∀ j, j < sel.length → coeffs j =
      inttFlat (2 ^ kr) (2 ^ kc) ((q ++ p).getD (sel.getD j 0) 0) (T (sel.getD j 0)) (last (sel.getD j 0))) :
    ∃ (conv : Mat) (D : Nat → Int), basisChangeMat (2 ^ kr * 2 ^ kc) original target coeffs = .ok conv ∧
      (∀ t, t < 2 ^ (kr + kc) → 0 ≤ D t ∧ D t < (sel.length * original.prod : Nat)) ∧
      (∀ i ∈ sel, ringOf (kr + kc) ((q ++ p).getD i 0) (last i) = polyOf (kr + kc) ((q ++ p).getD i 0) D) ∧
      ∀ j, j < tgt.length →
        (∀ t, t < 2 ^ (kr + kc) → nttFlat (2 ^ kr) (2 ^ kc) ((q ++ p).getD (tgt.getD j 0) 0) (T (tgt.getD j 0)) (conv j) t <
          (q ++ p).getD (tgt.getD j 0) 0) ∧
        ringOf (kr + kc) ((q ++ p).getD (tgt.getD j 0) 0)
          (nttFlat (2 ^ kr) (2 ^ kc) ((q ++ p).getD (tgt.getD j 0) 0) (T (tgt.getD j 0)) (conv j)) =
        polyOf (kr + kc) ((q ++ p).getD (tgt.getD j 0) 0) D := by
  subst horig htarget
  have hmem : ∀ (l : List Nat), (∀ i ∈ l, i < (q ++ p).length) → ∀ m ∈ l.map (fun i => (q ++ p).getD i 0), m ∈ q ++ p := by
    intro l hl m hm
    obtain ⟨i, hi, rfl⟩ := List.mem_map.1 hm
    exact getD_mem (hl i hi)
  have hlen : sel.length ≤ (q ++ p).length := by
    have hsub : sel ⊆ List.range (q ++ p).length := fun i hi => List.mem_range.2 (hsel i hi)
    have := (List.subperm_of_subset hnd hsub).length_le
    rwa [List.length_range] at this
  have hnd' : (sel.map (fun i => (q ++ p).getD i 0)).Nodup := by
    refine (List.nodup_map_iff_inj_on hnd).2 ?_
    intro i hi j hj hij
    rw [List.getD_eq_getElem _ _ (hsel i hi), List.getD_eq_getElem _ _ (hsel j hj)] at hij
    exact (List.Nodup.getElem_inj_iff h.nodup).1 hij
  have hget : ∀ (l : List Nat) j, j < l.length → (l.map (fun i => (q ++ p).getD i 0)).getD j 0 = (q ++ p).getD (l.getD j 0) 0 := by
    intro l j hj
    rw [List.getD_eq_getElem _ _ (by simpa using hj), List.getElem_map, List.getD_eq_getElem l _ hj]
  have hgm : ∀ (l : List Nat) j, j < l.length → l.getD j 0 ∈ l := fun l j hj => getD_mem hj
  have hin : ∀ i ∈ sel, ∀ t, inttFlat (2 ^ kr) (2 ^ kc) ((q ++ p).getD i 0) (T i) (last i) t < (q ++ p).getD i 0 := by
    intro i hi t
    have h31 := (h.at (hsel i hi)).good.lt
    exact (inttFlat_ringOf (h.at (hsel i hi)) (hT i (hsel i hi)) (last i)
      (fun t ht => lt_trans (hlast i hi t ht) (by omega))).1 t
  obtain ⟨conv, D, h1, h2, h3, h4⟩ := basisChangeMat_spec (2 ^ kr * 2 ^ kc) (sel.map (fun i => (q ++ p).getD i 0))
    (tgt.map (fun i => (q ++ p).getD i 0)) (by simpa using hne)
    (pairwise_coprime (fun m hm => (h.four m (hmem sel hsel m hm)).prime) hnd')
    (fun m hm => (h.four m (hmem sel hsel m hm)).good) (fun m hm => (h.four m (hmem tgt htgt m hm)).good)
    (fun m hm => by
      have := h.size m (hmem tgt htgt m hm)
      rw [List.length_map]; omega)
    (by
      rw [List.length_map]
      exact lt_of_le_of_lt (Nat.mul_le_mul_right _ hlen) h.size32) coeffs (by
    intro j hj t _
    have hj' : j < sel.length := by simpa using hj
    rw [hco j hj', hget sel j hj']
    exact hin _ (hgm sel j hj') t)
  rw [← pow_add] at h2 h3 h4
  refine ⟨conv, fun t => (D t : Int), h1, ?_, ?_, ?_⟩
  · intro t ht
    have := h2 t ht
    rw [List.length_map] at this
    exact ⟨Int.natCast_nonneg _, Int.ofNat_lt.2 this⟩
  · intro i hi
    obtain ⟨j, hj, hij⟩ := List.mem_iff_getElem.1 hi
    have hj2 : sel.getD j 0 = i := by rw [List.getD_eq_getElem _ _ hj, hij]
    have h31 := (h.at (hsel i hi)).good.lt
    obtain ⟨-, g⟩ := inttFlat_ringOf (h.at (hsel i hi)) (hT i (hsel i hi)) (last i)
      (fun t ht => lt_trans (hlast i hi t ht) (by omega))
    rw [← g]
    apply polyOf_congr
    intro t ht
    have e := h3 j (by simpa using hj) t ht
    rw [hget sel j hj, hco j hj, hj2] at e
    rw [← e, Int.cast_natCast, Int.cast_natCast, ZMod.natCast_mod]
  · intro j hj
    have hi := htgt _ (hgm tgt j hj)
    have hval : ∀ t, t < 2 ^ (kr + kc) → conv j t = D t % (q ++ p).getD (tgt.getD j 0) 0 := by
      intro t ht
      rw [h4 j (by simpa using hj) t ht, hget tgt j hj]
    have h31 := (h.at hi).good.lt
    obtain ⟨g1, g2⟩ := nttFlat_ringOf (h.at hi) (hT _ hi) (conv j) (by
      intro t ht
      rw [hval t ht]
      exact lt_trans (Nat.mod_lt _ (h.at hi).prime.pos) (by omega))
    refine ⟨g1, ?_⟩
    rw [g2]
    apply polyOf_congr
    intro t ht
    rw [hval t ht, Int.cast_natCast, Int.cast_natCast, ZMod.natCast_mod]

end Verif.CkksMul
