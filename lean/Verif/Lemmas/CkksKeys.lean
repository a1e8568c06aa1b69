import Verif.Lemmas.Automorphism
import Verif.Lemmas.Crt
import Verif.Model.CkksKeys

/-!
# Limb matrices as vectors of ring elements
-/

namespace Verif.CkksKeys
open Verif.Barrett Verif.NttCpu Verif.Slots Verif.Props Verif.Automorphism Verif.Crt

/-- Moduli for the CPU side: primes below `2^32` supporting transforms of length `2^k`. -/
structure Moduli (k : Nat) (ms : List Nat) : Prop where
  ntt : ∀ m ∈ ms, NttPrime k m
  lt : ∀ m ∈ ms, m < 2 ^ 32

/-- All entries are reduced. -/
def Reduced (k : Nat) (ms : List Nat) (M : Mat) : Prop := ∀ i, i < ms.length → ∀ p, p < 2 ^ k → M i p < ms.getD i 0

variable {k : Nat} {ms : List Nat}

theorem getD_mem {i : Nat} (hi : i < ms.length) : ms.getD i 0 ∈ ms := by
  rw [List.getD_eq_getElem _ _ hi]; exact List.getElem_mem hi

theorem Moduli.at (h : Moduli k ms) {i : Nat} (hi : i < ms.length) : NttPrime k (ms.getD i 0) ∧ ms.getD i 0 < 2 ^ 32 :=
  ⟨h.ntt _ (getD_mem hi), h.lt _ (getD_mem hi)⟩

theorem Moduli.take (h : Moduli k ms) (n : Nat) : Moduli k (ms.take n) :=
  ⟨fun m hm => h.ntt m (List.mem_of_mem_take hm), fun m hm => h.lt m (List.mem_of_mem_take hm)⟩

theorem Moduli.append {ms' : List Nat} (h : Moduli k ms) (h' : Moduli k ms') : Moduli k (ms ++ ms') :=
  ⟨fun m hm => by rcases List.mem_append.1 hm with h1 | h1; exacts [h.ntt m h1, h'.ntt m h1],
   fun m hm => by rcases List.mem_append.1 hm with h1 | h1; exacts [h.lt m h1, h'.lt m h1]⟩

theorem getD_take {n i : Nat} (hi : i < (ms.take n).length) : (ms.take n).getD i 0 = ms.getD i 0 := by
  rw [List.getD_eq_getElem _ _ hi, List.getElem_take, List.getD_eq_getElem]

theorem nttMat_ringOf (h : Moduli k ms) (poly : Mat) :
    ∃ M, nttMat (2 ^ k) ms poly = .ok M ∧ Reduced k ms M ∧
      ∀ i, i < ms.length → ringOf k (ms.getD i 0) (M i) = polyOf k (ms.getD i 0) (fun p => (poly i p : Int)) := by
  obtain ⟨cols, h1, h2, h3⟩ := mapM_ok
    (fun (i : Nat) => nttPoly (2 ^ k) (ms.getD i 0) (fun p => (poly i p : Int))) (List.range ms.length) (by
      intro i hi
      obtain ⟨r, hr, -⟩ := ntt_ringOf (h.at (List.mem_range.1 hi)).1 (fun p => (poly i p : Int))
      exact ⟨r, hr⟩)
  simp only [List.length_range] at h2
  have key : ∀ i, i < ms.length → (∀ p, p < 2 ^ k → (cols.getD i (fun _ => 0) p).toNat < ms.getD i 0) ∧
      ringOf k (ms.getD i 0) (fun p => (cols.getD i (fun _ => 0) p).toNat) =
        polyOf k (ms.getD i 0) (fun p => (poly i p : Int)) := by
    intro i hi
    have h4 := h3 i (by simpa using hi) (by omega)
    rw [List.getElem_range] at h4
    obtain ⟨r, g1, g2, g3⟩ := ntt_ringOf (h.at hi).1 (fun p => (poly i p : Int))
    rw [g1] at h4
    have h5 := Except.ok.inj h4
    rw [List.getD_eq_getElem cols _ (by omega), ← h5]
    exact ⟨fun p hp => toNat_lt (g2 p hp).1 (g2 p hp).2, g3⟩
  refine ⟨fun i p => (cols.getD i (fun _ => 0) p).toNat, ?_, fun i hi p hp => (key i hi).1 p hp, fun i hi => (key i hi).2⟩
  unfold nttMat
  simp only [h1, bind, Except.bind, pure, Except.pure]

theorem inttMat_ringOf (h : Moduli k ms) (f : Mat) :
    ∃ M, inttMat (2 ^ k) ms f = .ok M ∧ Reduced k ms M ∧
      ∀ i, i < ms.length → polyOf k (ms.getD i 0) (fun p => (M i p : Int)) = ringOf k (ms.getD i 0) (f i) := by
  obtain ⟨cols, h1, h2, h3⟩ := mapM_ok
    (fun (i : Nat) => inttPoly (2 ^ k) (ms.getD i 0) (fun p => (f i p : Int))) (List.range ms.length) (by
      intro i hi
      obtain ⟨r, hr, -⟩ := intt_ringOf (h.at (List.mem_range.1 hi)).1 (f i)
      exact ⟨r, hr⟩)
  simp only [List.length_range] at h2
  have key : ∀ i, i < ms.length → (∀ p, p < 2 ^ k → (cols.getD i (fun _ => 0) p).toNat < ms.getD i 0) ∧
      polyOf k (ms.getD i 0) (fun p => ((cols.getD i (fun _ => 0) p).toNat : Int)) = ringOf k (ms.getD i 0) (f i) := by
    intro i hi
    have h4 := h3 i (by simpa using hi) (by omega)
    rw [List.getElem_range] at h4
    obtain ⟨r, g1, g2, g3⟩ := intt_ringOf (h.at hi).1 (f i)
    rw [g1] at h4
    have h5 := Except.ok.inj h4
    rw [List.getD_eq_getElem cols _ (by omega), ← h5]
    refine ⟨fun p hp => toNat_lt (g2 p hp).1 (g2 p hp).2, ?_⟩
    rw [← g3]
    apply polyOf_congr
    intro p hp
    rw [Int.toNat_of_nonneg (g2 p hp).1]
  refine ⟨fun i p => (cols.getD i (fun _ => 0) p).toNat, ?_, fun i hi p hp => (key i hi).1 p hp, fun i hi => (key i hi).2⟩
  unfold inttMat
  simp only [h1, bind, Except.bind, pure, Except.pure]

theorem polyOf_residues (h : Moduli k ms) (c : Nat → Int) {i : Nat} (hi : i < ms.length) :
    polyOf k (ms.getD i 0) (fun p => (residues ms c i p : Int)) = polyOf k (ms.getD i 0) c := by
  have := (h.at hi).1.prime.pos
  apply polyOf_congr
  intro p _
  unfold residues
  rw [Int.toNat_of_nonneg (Int.emod_nonneg _ (by omega)), ZMod.intCast_mod]

theorem mul64_eq {x y : Nat} (hx : x < 2 ^ 32) (hy : y < 2 ^ 32) : mul64 x y = x * y := by
  unfold mul64
  apply Nat.mod_eq_of_lt
  have : 2 ^ 64 = 2 ^ 32 * 2 ^ 32 := by norm_num
  rw [this]
  exact Nat.mul_lt_mul'' hx hy

/-- The masked sum `e + t + q - (a s mod q)` of the key generators. -/
theorem mask_cast {q e t a s : Nat} (hq : q < 2 ^ 32) (he : e < q) (ht : t < q) (ha : a < q) (hs : s < q) :
    ((sub64 (add64 (add64 e t) q) (mul64 a s % q) % q : Nat) : ZMod q) = (e : ZMod q) + t - a * s := by
  have hq0 : 0 < q := by omega
  rw [mul64_eq (by omega) (by omega)]
  have hm := Nat.mod_lt (a * s) hq0
  have e1 : sub64 (add64 (add64 e t) q) (a * s % q) = e + t + q - a * s % q := by
    unfold sub64 add64; omega
  rw [e1, ZMod.natCast_mod, Nat.cast_sub (by omega)]
  push_cast
  simp

theorem mask_cast0 {q e a s : Nat} (hq : q < 2 ^ 32) (he : e < q) (ha : a < q) (hs : s < q) :
    ((sub64 (add64 e q) (mul64 a s % q) % q : Nat) : ZMod q) = (e : ZMod q) - a * s := by
  have h := mask_cast (t := 0) hq he (by omega) ha hs
  have e1 : add64 e 0 = e := by unfold add64; omega
  rw [e1] at h
  rw [h]; simp

/-- `ringOf` of a vector known modulo `q`. -/
theorem ringOf_cast {q : Nat} (h : NttPrime k q) (f : Nat → Nat) (a : Rq k q)
    (hf : ∀ p, p < 2 ^ k → (f p : ZMod q) = slot h p a) : ringOf k q f = a := (ringOf_eq_iff h f a).2 hf

end Verif.CkksKeys
