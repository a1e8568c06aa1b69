import Verif.Props.RnsProgram
import Verif.Props.Crt

/-!
# C48 for whole programs, against integer polynomials

The specification of this file uses nothing but integer vectors: a program means what it computes on integer
polynomials of degree below `n` with `X^n = -1`, and no modulus and no transform appears.
-/

namespace Verif.Props
open Verif.RnsNtt Verif.RnsProgram Verif.BitReversal Finset

/-- The product of integer polynomials with `X^n = -1`: a term of degree `m` counts for `m`, one of degree `m + n`
counts negatively. -/
def negaProduct {n : Nat} (a b : Fin n → Int) : Fin n → Int := fun m =>
  ∑ i, ∑ j, if i.val + j.val = m.val then a i * b j else if i.val + j.val = m.val + n then -(a i * b j) else 0

/-- The value of an object; no program that runs asks for one that does not exist. -/
def intAt {n : Nat} (vals : List (Fin n → Int)) (a : Nat) : Fin n → Int := vals.getD a (fun _ => 0)

/-- One statement on integer polynomials; changing the form changes nothing. -/
def intStep (n : Nat) (vals : List (Fin n → Int)) : Instr → List (Fin n → Int)
  | .gen coeffs => vals ++ [fun i : Fin n => coeffs.getD i.val 0]
  | .neg a => vals ++ [fun i => -intAt vals a i]
  | .add a b => vals ++ [fun i => intAt vals a i + intAt vals b i]
  | .sub a b => vals ++ [fun i => intAt vals a i - intAt vals b i]
  | .mul a b => vals ++ [negaProduct (intAt vals a) (intAt vals b)]
  | .toNtt _ => vals
  | .toCoeffs _ => vals

/-- Reducing an integer vector modulo one modulus. -/
noncomputable def redVal {n : Nat} (q : Nat) (v : Fin n → Int) : Nega.Q (ZMod q) n := Nega.ev (fun i => (v i : ZMod q))

theorem shift_eq_sum {n : Nat} {R : Type*} [CommRing R] (e : Fin n) (a : Fin n → R) (m : Fin n) :
    Nega.shift e.val a m =
      ∑ i, if i.val + e.val = m.val then a i else if i.val + e.val = m.val + n then -a i else 0 := by
  have he := e.isLt
  have hm := m.isLt
  unfold Nega.shift
  split
  · rename_i h
    rw [Finset.sum_eq_single ⟨m.val - e.val, by omega⟩]
    · rw [if_pos (by simp only; omega)]
    · intro i _ hi
      have hi' : i.val ≠ m.val - e.val := fun h => hi (Fin.ext h)
      have := i.isLt
      rw [if_neg (by omega), if_neg (by omega)]
    · simp
  · split
    · rename_i h h2
      rw [Finset.sum_eq_single ⟨n + m.val - e.val, h2⟩]
      · rw [if_neg (by simp only; omega), if_pos (by simp only; omega)]
      · intro i _ hi
        have hi' : i.val ≠ n + m.val - e.val := fun h => hi (Fin.ext h)
        have := i.isLt
        rw [if_neg (by omega), if_neg (by omega)]
      · simp
    · omega

theorem redVal_mul {n : Nat} (q : Nat) (a b : Fin n → Int) :
    redVal q (negaProduct a b) = redVal q a * redVal q b := by
  unfold redVal
  rw [← Nega.ev_mul]
  congr 1
  funext m
  unfold negaProduct Nega.mul
  rw [Finset.sum_comm]
  push_cast
  refine Finset.sum_congr rfl fun j _ => ?_
  rw [shift_eq_sum, Finset.mul_sum]
  refine Finset.sum_congr rfl fun i _ => ?_
  split
  · ring
  · split
    · ring
    · simp

/-- Vectors that reduce to the values. -/
def IntOk (n : Nat) (moduli : List Nat) (zs : List (Fin n → Int)) (vals : List (RingVals n moduli)) : Prop :=
  zs.length = vals.length ∧ ∀ (a : Nat) (i : Fin moduli.length), valAt vals a i = redVal moduli[i] (intAt zs a)

theorem intOk_push {n : Nat} {moduli : List Nat} {zs : List (Fin n → Int)} {vals : List (RingVals n moduli)}
    (h : IntOk n moduli zs vals) (z : Fin n → Int) (v : RingVals n moduli) (hv : ∀ i, v i = redVal moduli[i] z) :
    IntOk n moduli (zs ++ [z]) (pushVal vals v) := by
  refine ⟨by simp [pushVal, h.1], fun a i => ?_⟩
  have h0 : redVal moduli[i] (fun _ : Fin n => (0 : Int)) = 0 := by
    unfold redVal; simpa using Nega.ev_zero
  rcases Nat.lt_trichotomy a vals.length with ha | ha | ha
  · have e1 : valAt (pushVal vals v) a = valAt vals a := by
      simp only [valAt, pushVal, List.getD_eq_getElem?_getD, List.getElem?_append_left ha]
    have e2 : intAt (zs ++ [z]) a = intAt zs a := by
      simp only [intAt, List.getD_eq_getElem?_getD, List.getElem?_append_left (h.1 ▸ ha)]
    rw [e1, e2, h.2]
  · have e1 : valAt (pushVal vals v) a = v := by
      subst ha
      simp [valAt, pushVal, List.getD_eq_getElem?_getD]
    have e2 : intAt (zs ++ [z]) a = z := by
      rw [ha, ← h.1]
      simp [intAt, List.getD_eq_getElem?_getD]
    rw [e1, e2, hv]
  · have e1 : valAt (pushVal vals v) a = fun _ => 0 := by
      unfold valAt pushVal
      rw [List.getD_eq_default _ _ (by simp; omega)]
    have e2 : intAt (zs ++ [z]) a = fun _ => 0 := by
      unfold intAt
      rw [List.getD_eq_default _ _ (by rw [List.length_append, List.length_singleton, h.1]; omega)]
    rw [e1, e2]
    exact h0.symm

theorem intOk_step {n : Nat} {moduli : List Nat} {zs : List (Fin n → Int)} {vals : List (RingVals n moduli)}
    (h : IntOk n moduli zs vals) (s : Instr) : IntOk n moduli (intStep n zs s) (meaningStep n moduli vals s) := by
  cases s with
  | gen coeffs => exact intOk_push h _ _ (fun i => rfl)
  | neg a =>
    refine intOk_push h _ _ (fun i => ?_)
    rw [h.2]
    unfold redVal
    rw [← Nega.ev_neg]
    congr 1; funext j; push_cast; rfl
  | add a b =>
    refine intOk_push h _ _ (fun i => ?_)
    rw [h.2, h.2]
    unfold redVal
    rw [← Nega.ev_add]
    congr 1; funext j; push_cast; rfl
  | sub a b =>
    refine intOk_push h _ _ (fun i => ?_)
    rw [h.2, h.2]
    unfold redVal
    rw [← Nega.ev_sub]
    congr 1; funext j; push_cast; rfl
  | mul a b =>
    refine intOk_push h _ _ (fun i => ?_)
    rw [h.2, h.2, redVal_mul]
  | toNtt a => exact h
  | toCoeffs a => exact h

theorem intOk_run {n : Nat} {moduli : List Nat} (prog : List Instr) :
    ∀ (zs : List (Fin n → Int)) (vals : List (RingVals n moduli)), IntOk n moduli zs vals →
      IntOk n moduli (prog.foldl (intStep n) zs) (prog.foldl (meaningStep n moduli) vals) := by
  induction prog with
  | nil => exact fun zs vals h => h
  | cons s rest ih => exact fun zs vals h => ih _ _ (intOk_step h s)

/-- **C48, for whole programs, against the integers.** After any sequence of statements that does not raise, every
object, once in coefficient form, is the one that `gen_rns_polynomial` makes of the integer polynomial that the same
statements compute with `X^n = -1`. -/
theorem C48_program_integers (k : Nat) (hk : 1 ≤ k) (moduli : List Nat) (hprime : ∀ q ∈ moduli, q.Prime)
    (params : List Ntt) (hp : mkParams (2 ^ k) moduli = .ok params) (prog : List Instr)
    (hg : ∀ coeffs, .gen coeffs ∈ prog → coeffs.length = 2 ^ k) (heap : List Poly)
    (hr : run (2 ^ k) moduli params [] prog = .ok heap) (a : Nat) (p : Poly) (ha : heap[a]? = some p) :
    toCoeffsForm params p =
      genRnsPolynomial (2 ^ k) (List.ofFn (intAt (prog.foldl (intStep (2 ^ k)) []) a)) moduli := by
  set z := intAt (prog.foldl (intStep (2 ^ k)) []) a with hz
  have h1 : Represents (2 ^ k) moduli params p _ := (C48_program k hk moduli hprime params hp prog hg heap hr).2 a p ha
  have h3 := (represents_form hk hprime hp h1).2
  have s3 := shaped_of h3.1 h3.2.1 h3.2.2.1 h3.2.2.2.1
  have sG := built_shaped (fun q hq => (hprime q hq).pos) hp
    (BuiltPoly.gen (params := params) (moduli := moduli) (List.ofFn z) (by simp))
  have hI : IntOk (2 ^ k) moduli (prog.foldl (intStep (2 ^ k)) []) (prog.foldl (meaningStep (2 ^ k) moduli) []) := by
    refine intOk_run prog [] [] ⟨rfl, fun a i => ?_⟩
    unfold redVal valAt intAt
    simpa using Nega.ev_zero.symm
  have hc : (toCoeffsForm params p).coeffs = (genRnsPolynomial (2 ^ k) (List.ofFn z) moduli).coeffs := by
    apply List.ext_getElem
    · rw [s3.len, sG.len]
    · intro i l1 l2
      have hi : i < moduli.length := s3.len ▸ l1
      have k1 := row_kept s3 i hi
      have k2 := row_kept sG i hi
      have e1 := h1.2.2.2.2 ⟨i, hi⟩
      rw [hI.2 a ⟨i, hi⟩, ← hz] at e1
      have e2 : ringElt (2 ^ k) moduli[i] ((genRnsPolynomial (2 ^ k) (List.ofFn z) moduli).coeffs.getD i []) =
          redVal moduli[i] z := by
        have : (genRnsPolynomial (2 ^ k) (List.ofFn z) moduli).coeffs.getD i [] =
            (List.ofFn z).map (fun x => x % ((moduli[i] : Nat) : Int)) := by
          simp [genRnsPolynomial, List.getD_eq_getElem?_getD, hi]
        rw [this, ringElt_map_mod]
        unfold ringElt redVal
        congr 1
        funext j
        rw [List.getD_eq_getElem _ _ (by simp), List.getElem_ofFn]
      have := ringElt_inj (by positivity) k1 k2 (e1.trans e2.symm)
      rwa [List.getD_eq_getElem _ _ l1, List.getD_eq_getElem _ _ l2] at this
  have f : (toCoeffsForm params p).isNtt = false := by
    unfold toCoeffsForm; split <;> simp_all
  have e1 := s3.degree
  have e2 := s3.mod
  cases h5 : toCoeffsForm params p
  simp only [h5] at hc e1 e2 f
  unfold genRnsPolynomial at hc ⊢
  simp only at hc
  simp [hc, e1, e2, f]

/-- The sample program on integers: `(1 - 2X + 3X^2 + 40X^3)(5X + X^3) + (1 - 2X + 3X^2 + 40X^3)`. -/
example : List.ofFn (intAt (sampleProg.foldl (intStep (2 ^ 2)) []) 3) = [-197, 0, -47, 56] := by decide +kernel

example : ∃ params heap p, mkParams (2 ^ 2) [17, 41] = .ok params ∧
    run (2 ^ 2) [17, 41] params [] sampleProg = .ok heap ∧ heap[3]? = some p ∧
    toCoeffsForm params p = genRnsPolynomial 4 [-197, 0, -47, 56] [17, 41] := by
  have h : (mkParams (2 ^ 2) [17, 41]).toOption.isSome := by decide +kernel
  cases hp : mkParams (2 ^ 2) [17, 41] with
  | error e => rw [hp] at h; cases h
  | ok params =>
    obtain ⟨heap, hr⟩ := (C48_program_runs (2 ^ 2) [17, 41] params sampleProg).2 (by decide +kernel)
    have hl := (C48_program 2 (by norm_num) [17, 41] (by simp; decide) params hp sampleProg (by simp [sampleProg]) heap hr).1
    have h3 : 3 < heap.length := by rw [hl]; simp [sampleProg, meaningStep, pushVal]
    have := C48_program_integers 2 (by norm_num) [17, 41] (by simp; decide) params hp sampleProg (by simp [sampleProg])
      heap hr 3 heap[3] (List.getElem?_eq_getElem h3)
    refine ⟨params, heap, heap[3], rfl, hr, List.getElem?_eq_getElem h3, this.trans ?_⟩
    rw [show List.ofFn (intAt (sampleProg.foldl (intStep (2 ^ 2)) []) 3) = [-197, 0, -47, 56] by decide +kernel]
    rfl

/-! ## Back to integers -/

/-- **C48, for whole programs, back to integers.** With different prime moduli, reconstructing the rows of any object of a
program, once in coefficient form, gives the coefficients of the integer polynomial that the statements compute,
modulo the product of the moduli. -/
theorem C48_program_reconstruct (k : Nat) (hk : 1 ≤ k) (moduli : List Nat) (hprime : ∀ q ∈ moduli, q.Prime)
    (hne : moduli ≠ []) (hnd : moduli.Nodup) (params : List Ntt) (hp : mkParams (2 ^ k) moduli = .ok params)
    (prog : List Instr) (hg : ∀ coeffs, .gen coeffs ∈ prog → coeffs.length = 2 ^ k) (heap : List Poly)
    (hr : run (2 ^ k) moduli params [] prog = .ok heap) (a : Nat) (p : Poly) (ha : heap[a]? = some p) :
    Crt.reconstructCrt (toCoeffsForm params p).coeffs moduli =
      .ok (List.ofFn (fun j => intAt (prog.foldl (intStep (2 ^ k)) []) a j % (moduli.prod : Int))) := by
  have hpos : ∀ q ∈ moduli, 0 < q := fun q hq => (hprime q hq).pos
  have hco : moduli.Pairwise Nat.Coprime := by
    refine List.Pairwise.imp_of_mem ?_ hnd
    intro x y hx hy hxy
    exact (Nat.coprime_primes (hprime x hx) (hprime y hy)).2 hxy
  have hQ : (0 : Int) < moduli.prod := by exact_mod_cast List.prod_pos hpos
  rw [C48_program_integers k hk moduli hprime params hp prog hg heap hr a p ha]
  rw [← C35_roundtrip (List.ofFn (fun j => intAt (prog.foldl (intStep (2 ^ k)) []) a j % (moduli.prod : Int))) moduli hne
    hco hpos (by
      intro x hx
      rw [List.mem_ofFn] at hx
      obtain ⟨j, rfl⟩ := hx
      exact ⟨Int.emod_nonneg _ hQ.ne', Int.emod_lt_of_pos _ hQ⟩)]
  congr 1
  unfold genRnsPolynomial
  refine List.map_congr_left fun q hq => ?_
  rw [List.map_ofFn, List.map_ofFn]
  congr 1
  funext j
  have hd : (q : Int) ∣ (moduli.prod : Int) := by exact_mod_cast List.dvd_prod hq
  exact (Int.emod_emod_of_dvd _ hd).symm

/-- The sample program, reconstructed modulo `17 * 41 = 697`. -/
example (params : List Ntt) (hp : mkParams (2 ^ 2) [17, 41] = .ok params) (heap : List Poly)
    (hr : run (2 ^ 2) [17, 41] params [] sampleProg = .ok heap) (p : Poly) (h : heap[3]? = some p) :
    Crt.reconstructCrt (toCoeffsForm params p).coeffs [17, 41] = .ok [500, 0, 650, 56] := by
  rw [C48_program_reconstruct 2 (by norm_num) [17, 41] (by simp; decide) (by simp) (by simp) params hp sampleProg
    (by simp [sampleProg]) heap hr 3 p h]
  congr 1

/-! ## Coefficient lists of another length -/

/-- **C48, the hypothesis on lengths.** `gen_rns_polynomial` does not check the length of the list: it gives a
polynomial with rows of `degree` entries exactly if the list has that length (or there is no modulus). -/
theorem C48_length_unchecked (n : Nat) (coeffs : List Int) (moduli : List Nat) :
    WellFormed (genRnsPolynomial n coeffs moduli) ↔ moduli = [] ∨ coeffs.length = n := by
  unfold WellFormed genRnsPolynomial
  simp only [List.length_map, true_and, List.mem_map, forall_exists_index, and_imp, forall_apply_eq_imp_iff₂]
  cases moduli with
  | nil => simp
  | cons q l => simp; exact fun h _ _ => h

/-- A longer list loses its higher coefficients in the first operation; they are not reduced with `X^n = -1`. -/
theorem C48_long_lists (n : Nat) (coeffs : List Int) (moduli : List Nat) (h : n ≤ coeffs.length) :
    RnsNtt.neg (RnsNtt.neg (genRnsPolynomial n coeffs moduli)) = genRnsPolynomial n (coeffs.take n) moduli := by
  unfold RnsNtt.neg genRnsPolynomial
  simp only [Poly.mk.injEq, true_and, and_true]
  apply List.ext_getElem
  · simp [tabulate]
  · intro i h1 h2
    have hi : i < moduli.length := by simpa using h2
    simp only [tabulate, List.getElem_mapIdx, List.getElem_map]
    apply List.ext_getElem
    · simp [h]
    · intro j h3 h4
      have hj : j < n := by simpa using h3
      have hj' : j < coeffs.length := by omega
      have e : ∀ x q : Int, (-(-(x % q) % q)) % q = x % q := fun x q => by
        have h0 : (-(-(x % q) % q)) % q = (-(-(x % q))) % q := (Int.ModEq.neg (Int.mod_modEq _ _) : _)
        rw [h0, neg_neg, Int.emod_emod]
      simp [entry, List.getD_eq_getElem?_getD, hi, hj, hj', e]

example : RnsNtt.neg (RnsNtt.neg (genRnsPolynomial 2 [1, 2, 3] [17])) = genRnsPolynomial 2 [1, 2] [17] :=
  C48_long_lists 2 [1, 2, 3] [17] (by simp)

example : ¬ WellFormed (genRnsPolynomial 2 [1, 2, 3] [17]) := by
  rw [C48_length_unchecked]; simp

end Verif.Props
