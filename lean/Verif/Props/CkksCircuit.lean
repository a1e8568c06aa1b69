import Verif.Model.CkksCircuit
import Verif.Props.CkksSession

/-!
# Property C79: programs over the CKKS package

The specification: `eval` is the program on slots, `budget` the moduli, scale, magnitude, error and coefficient bound of
its result, `Fits` the conditions on moduli, scales and keys under which the operations are applicable.
-/

namespace Verif.Props
open Verif.Barrett Verif.NttBat Verif.Slots Verif.CkksKeys Verif.CkksMul Verif.CkksRotate Verif.Crt Verif.Encode
open Verif.CkksCircuit Verif.CkksSession Verif.Automorphism

/-- A program on vectors of `2^t` slots. -/
noncomputable def eval (t : Nat) (zs ps : List (Nat → ℂ)) : Expr → Nat → ℂ
  | .input i => zs.getD i (fun _ => 0)
  | .add a b => fun j => eval t zs ps a j + eval t zs ps b j
  | .mul a b => fun j => eval t zs ps a j * eval t zs ps b j
  | .mulPlain a i => fun j => eval t zs ps a j * ps.getD i (fun _ => 0) j
  | .rotate r a => fun j => eval t zs ps a ((j + (2 ^ t - r % 2 ^ t)) % 2 ^ t)
  | .conj a => fun j => (starRingEnd ℂ) (eval t zs ps a j)
  | .rescale _ a => eval t zs ps a

/-- What is known about a ciphertext or plaintext: its moduli, its scale, a bound on the slots, a bound on the error of
the slots, a bound on the coefficients. -/
structure Budget where
  q : List Nat
  scale : ℝ
  mag : ℝ
  err : ℝ
  bnd : ℝ

/-- The noise of a key switch with `dnum` parts. -/
noncomputable def switchNoise (T : Tools) (B : Int) (q : List Nat) : ℝ :=
  (((∑ part ∈ Finset.range T.dnum,
    2 ^ (T.kr + T.kc) * (((partModuli q T.dnum part).length * (partModuli q T.dnum part).prod : Nat) : Int) * B) +
    ((T.aux.length * T.aux.prod : Nat) : Int) * (1 + 2 ^ (T.kr + T.kc)) : Int) : ℝ) / (T.aux.prod : ℝ)

/-- The noise of a rotation. -/
noncomputable def rotateNoise (T : Tools) (B : Int) (q : List Nat) : ℝ :=
  ((rotNoise (T.kr + T.kc) q T.aux B 1 : Int) : ℝ) / (T.aux.prod : ℝ)

/-- The rounding error of a rescaling by `n` moduli. -/
noncomputable def rescaleNoise (T : Tools) (n : Nat) : ℝ := 2 + n * (1 + 2 ^ (T.kr + T.kc))

noncomputable def budget (T : Tools) (B : Int) (ins plains : List Budget) : Expr → Budget
  | .input i => ins.getD i ⟨[], 1, 0, 0, 0⟩
  | .add a b =>
    let x := budget T B ins plains a
    let y := budget T B ins plains b
    ⟨x.q, x.scale, x.mag + y.mag, x.err + y.err, x.bnd + y.bnd⟩
  | .mul a b =>
    let x := budget T B ins plains a
    let y := budget T B ins plains b
    ⟨x.q, x.scale * y.scale, x.mag * y.mag,
      x.err * (y.mag + y.err) + x.mag * y.err + 2 ^ (T.kr + T.kc) * (switchNoise T B x.q / (x.scale * y.scale)),
      2 ^ (T.kr + T.kc) * x.bnd * y.bnd + switchNoise T B x.q⟩
  | .mulPlain a i =>
    let x := budget T B ins plains a
    let y := plains.getD i ⟨[], 1, 0, 0, 0⟩
    ⟨x.q, x.scale * y.scale, x.mag * y.mag, x.err * (y.mag + y.err) + x.mag * y.err, 2 ^ (T.kr + T.kc) * x.bnd * y.bnd⟩
  | .rotate _ a =>
    let x := budget T B ins plains a
    ⟨x.q, x.scale, x.mag, x.err + 2 ^ (T.kr + T.kc) * (rotateNoise T B x.q / x.scale), x.bnd + rotateNoise T B x.q⟩
  | .conj a =>
    let x := budget T B ins plains a
    ⟨x.q, x.scale, x.mag, x.err + 2 ^ (T.kr + T.kc) * (switchNoise T B x.q / x.scale), x.bnd + switchNoise T B x.q⟩
  | .rescale n a =>
    let x := budget T B ins plains a
    let p := x.q.drop (x.q.length - n)
    ⟨x.q.take (x.q.length - n), x.scale / p.prod, x.mag,
      x.err + 2 ^ (T.kr + T.kc) * (rescaleNoise T n / (x.scale / p.prod)), x.bnd / p.prod + rescaleNoise T n⟩

/-- A relinearisation key for the moduli `q`, with errors at most `B`. -/
def MulKeyOk (T : Tools) (s : Nat → Int) (B : Int) (q : List Nat) : Prop :=
  ∃ (src : Mat) (e : Nat → Nat → Int),
    (∀ i, i < q.length → ringOf (T.kr + T.kc) (q.getD i 0) (src i) = polyOf (T.kr + T.kc) (q.getD i 0) s ^ 2) ∧
    (∀ part, part < T.dnum → ∀ t, t < 2 ^ (T.kr + T.kc) → |e part t| ≤ B) ∧
    SwitchKey (T.kr + T.kc) q T.aux T.dnum s src e (T.evk q)

/-- A conjugation key for the moduli `q`, with errors at most `B`. -/
def ConjKeyOk (T : Tools) (s : Nat → Int) (B : Int) (q : List Nat) : Prop :=
  ∃ (sInv : Nat → Int) (src : Mat) (e : Nat → Nat → Int), sInv 0 = s 0 ∧
    (∀ j, 0 < j → j < 2 ^ (T.kr + T.kc) → sInv (2 ^ (T.kr + T.kc) - j) = -s j) ∧
    (∀ i, i < q.length → ringOf (T.kr + T.kc) (q.getD i 0) (src i) = polyOf (T.kr + T.kc) (q.getD i 0) sInv) ∧
    (∀ part, part < T.dnum → ∀ t, t < 2 ^ (T.kr + T.kc) → |e part t| ≤ B) ∧
    SwitchKey (T.kr + T.kc) q T.aux T.dnum s src e (T.conjKey q)

/-- A rotation key by `r` (for the bit 1) for the moduli `q`, with errors at most `B`. -/
def RotKeyOk (T : Tools) (s : Nat → Int) (B : Int) (q : List Nat) (r : Nat) : Prop :=
  ∃ (g : Nat) (sRot e0 e1 : Nat → Int), g % 2 = 1 ∧ g < 2 * 2 ^ (T.kr + T.kc) ∧ (5 ^ r * g) % (2 * 2 ^ (T.kr + T.kc)) = 1 ∧
    IsSubst (2 ^ (T.kr + T.kc)) g s sRot ∧ (∀ t, t < 2 ^ (T.kr + T.kc) → |e0 t| ≤ B ∧ |e1 t| ≤ B) ∧
    RotKey (T.kr + T.kc) q T.aux s sRot 1 e0 e1 (T.rotKey q r)

/-- The operations of the program are applicable: operands have the same moduli (and scale, for sums), the moduli are
primes of the required form, keys for them are valid. -/
def Fits (T : Tools) (s : Nat → Int) (B : Int) (ins plains : List Budget) : Expr → Prop
  | .input i => i < ins.length
  | .add a b => Fits T s B ins plains a ∧ Fits T s B ins plains b ∧
    (budget T B ins plains a).q = (budget T B ins plains b).q ∧ (budget T B ins plains a).scale = (budget T B ins plains b).scale ∧
    ∀ m ∈ (budget T B ins plains a).q, FourStep T.kr T.kc m
  | .mul a b => Fits T s B ins plains a ∧ Fits T s B ins plains b ∧
    (budget T B ins plains a).q = (budget T B ins plains b).q ∧
    Basis T.kr T.kc (budget T B ins plains a).q T.aux ∧ 0 < T.dnum ∧
    Dropped (T.original (budget T B ins plains a).q) T.deg (budget T B ins plains a).q ∧
    MulKeyOk T s B (budget T B ins plains a).q
  | .mulPlain a i => Fits T s B ins plains a ∧ i < plains.length ∧
    (plains.getD i ⟨[], 1, 0, 0, 0⟩).q = (budget T B ins plains a).q ∧
    ∀ m ∈ (budget T B ins plains a).q, FourStep T.kr T.kc m
  | .rotate r a => Fits T s B ins plains a ∧ Basis T.kr T.kc (budget T B ins plains a).q T.aux ∧
    Chain T.kr T.kc ((budget T B ins plains a).q ++ T.aux) ∧ RotKeyOk T s B (budget T B ins plains a).q r
  | .conj a => Fits T s B ins plains a ∧ Basis T.kr T.kc (budget T B ins plains a).q T.aux ∧
    Chain T.kr T.kc ((budget T B ins plains a).q ++ T.aux) ∧ 0 < T.dnum ∧
    (T.dnum - 1) * (((budget T B ins plains a).q.length + T.dnum - 1) / T.dnum) < (budget T B ins plains a).q.length ∧
    ConjKeyOk T s B (budget T B ins plains a).q
  | .rescale n a => Fits T s B ins plains a ∧
    n ≤ (budget T B ins plains a).q.length ∧
    Basis T.kr T.kc ((budget T B ins plains a).q.take ((budget T B ins plains a).q.length - n))
      ((budget T B ins plains a).q.drop ((budget T B ins plains a).q.length - n)) ∧
    Chain T.kr T.kc (budget T B ins plains a).q

/-- The ciphertext holds the slots `z` within the budget. -/
structure Carries (k t : Nat) (s : Nat → Int) (b : Budget) (z : Nat → ℂ) (ct : Ciphertext) : Prop where
  scale : 0 < b.scale
  mag : ∀ j, j < 2 ^ t → ‖z j‖ ≤ b.mag
  holds : ∃ m, Holds k b.q s ct m ∧ (∀ p, p < 2 ^ k → |(m p : ℝ)| ≤ b.bnd) ∧
    ∀ j, j < 2 ^ t → ‖slotsOf (2 ^ k) m b.scale j - z j‖ ≤ b.err

/-- The plaintext holds the slots `z` within the budget. -/
structure PlainCarries (k t : Nat) (b : Budget) (z : Nat → ℂ) (pt : Plaintext) : Prop where
  scale : 0 < b.scale
  mag : ∀ j, j < 2 ^ t → ‖z j‖ ≤ b.mag
  moduli : pt.moduli = b.q
  reduced : Reduced k b.q pt.data
  holds : ∃ x : Nat → Int, (∀ i, i < b.q.length → ringOf k (b.q.getD i 0) (pt.data i) = polyOf k (b.q.getD i 0) x) ∧
    (∀ p, p < 2 ^ k → |(x p : ℝ)| ≤ b.bnd) ∧ ∀ j, j < 2 ^ t → ‖slotsOf (2 ^ k) x b.scale j - z j‖ ≤ b.err

/-! ## The operations -/

theorem four_moduli {kr kc : Nat} {q : List Nat} (h : ∀ m ∈ q, FourStep kr kc m) : Moduli (kr + kc) q :=
  ⟨fun m hm => FourStep.nttPrime (h m hm), fun m hm => by have := (h m hm).good.lt; omega⟩

/-- Errors of a product. -/
theorem prod_err {x y a b : ℂ} {ea eb ma mb : ℝ} (h1 : ‖x - a‖ ≤ ea) (h2 : ‖y - b‖ ≤ eb) (h3 : ‖a‖ ≤ ma) (h4 : ‖b‖ ≤ mb) :
    ‖x * y - a * b‖ ≤ ea * (mb + eb) + ma * eb := by
  have e : x * y - a * b = (x - a) * y + a * (y - b) := by ring
  have hy : ‖y‖ ≤ mb + eb := by
    have := norm_add_le b (y - b)
    rw [add_sub_cancel] at this
    linarith
  rw [e]
  refine (norm_add_le _ _).trans ?_
  rw [norm_mul, norm_mul]
  exact add_le_add (mul_le_mul h1 hy (norm_nonneg _) ((norm_nonneg _).trans h1))
    (mul_le_mul h3 h2 (norm_nonneg _) ((norm_nonneg _).trans h3))

theorem slots_err {k t : Nat} {m η : Nat → Int} {scale : ℝ} (hsc : 0 < scale) {H e : ℝ} {z : Nat → ℂ}
    (hη : ∀ p, p < 2 ^ k → |(η p : ℝ)| ≤ H) (hm : ∀ j, j < 2 ^ t → ‖slotsOf (2 ^ k) m scale j - z j‖ ≤ e) :
    ∀ j, j < 2 ^ t → ‖slotsOf (2 ^ k) (fun p => m p + η p) scale j - z j‖ ≤ e + 2 ^ k * (H / scale) := by
  intro j hj
  rw [C71_sum, add_sub_right_comm]
  refine (norm_add_le _ _).trans (add_le_add (hm j hj) ?_)
  unfold slotsOf
  refine (slotEval_norm _ _ (H / scale) ?_ j).trans (by push_cast; exact le_rfl)
  intro p hp
  rw [abs_div, abs_of_pos hsc]
  exact div_le_div_of_nonneg_right (hη p hp) hsc.le

/-- From `P |η| ≤ E` to `|η| ≤ E / P` in the reals. -/
theorem noise_real {P E η : ℤ} (hP : 0 < P) (h : P * |η| ≤ E) : |(η : ℝ)| ≤ (E : ℝ) / (P : ℝ) := by
  have hP' : (0 : ℝ) < P := by exact_mod_cast hP
  rw [le_div_iff₀ hP', mul_comm]
  have : ((P * |η| : ℤ) : ℝ) ≤ E := by exact_mod_cast h
  rwa [Int.cast_mul, Int.cast_abs] at this

theorem imul_abs_real (k : Nat) (a b : Nat → Int) (A B : ℝ)
    (ha : ∀ p, p < 2 ^ k → |(a p : ℝ)| ≤ A) (hb : ∀ p, p < 2 ^ k → |(b p : ℝ)| ≤ B) (p : Nat) :
    |(imul k a b p : ℝ)| ≤ 2 ^ k * A * B := by
  have hA : 0 ≤ A := (abs_nonneg _).trans (ha 0 (by positivity))
  have hB : 0 ≤ B := (abs_nonneg _).trans (hb 0 (by positivity))
  have h := imul_abs k a b ⌊A⌋ ⌊B⌋ (Int.floor_nonneg.2 hA) (Int.floor_nonneg.2 hB)
    (fun p hp => Int.le_floor.2 (by rw [Int.cast_abs]; exact ha p hp))
    (fun p hp => Int.le_floor.2 (by rw [Int.cast_abs]; exact hb p hp)) p
  have h' : ((|imul k a b p| : ℤ) : ℝ) ≤ ((2 ^ k * ⌊A⌋ * ⌊B⌋ : ℤ) : ℝ) := by exact_mod_cast h
  rw [Int.cast_abs] at h'
  refine h'.trans ?_
  push_cast
  have h1 := Int.floor_le A
  have h2 := Int.floor_le B
  have h3 : (0 : ℝ) ≤ ⌊B⌋ := by exact_mod_cast Int.floor_nonneg.2 hB
  exact mul_le_mul (mul_le_mul_of_nonneg_left h1 (by positivity)) h2 h3 (by positivity)

theorem add_carries {kr kc t : Nat} {s : Nat → Int} {x y : Budget} {za zb : Nat → ℂ} {A C : Ciphertext}
    (hA : Carries (kr + kc) t s x za A) (hC : Carries (kr + kc) t s y zb C) (hq : x.q = y.q) (hs : x.scale = y.scale)
    (hf : ∀ m ∈ x.q, FourStep kr kc m) :
    ∃ ct, addCt A C = .ok ct ∧ Carries (kr + kc) t s ⟨x.q, x.scale, x.mag + y.mag, x.err + y.err, x.bnd + y.bnd⟩
      (fun j => za j + zb j) ct := by
  obtain ⟨hsc, hmA, mA, a1, a2, a3⟩ := hA
  obtain ⟨-, hmC, mC, c1, c2, c3⟩ := hC
  rw [← hq] at c1
  rw [← hs] at c3
  obtain ⟨h1, -, h3⟩ := C72_add (kr + kc) x.q (four_moduli hf) (fun m hm => (hf m hm).good.lt) s A C mA mC a1 c1
  refine ⟨_, ?_, hsc, ?_, fun p => mA p + mC p, h1, ?_, ?_⟩
  · unfold addCt
    rw [if_neg (by rw [a1.moduli, c1.moduli]; simp), a1.moduli]
  · intro j hj
    exact (norm_add_le _ _).trans (add_le_add (hmA j hj) (hmC j hj))
  · intro p hp
    push_cast
    exact (abs_add_le _ _).trans (add_le_add (a2 p hp) (c2 p hp))
  · intro j hj
    simp only
    rw [h3, add_sub_add_comm]
    exact (norm_add_le _ _).trans (add_le_add (a3 j hj) (c3 j hj))

theorem mul_carries (T : Tools) {t : Nat} (hk : T.kr + T.kc = t + 1) {s : Nat → Int} (hs : Binary s) (B : Int) (hB0 : 0 ≤ B)
    {x y : Budget} {za zb : Nat → ℂ} {A C : Ciphertext}
    (hA : Carries (T.kr + T.kc) t s x za A) (hC : Carries (T.kr + T.kc) t s y zb C) (hq : x.q = y.q)
    (hb : Basis T.kr T.kc x.q T.aux) (hd : 0 < T.dnum) (hdrop : Dropped (T.original x.q) T.deg x.q)
    (hkey : MulKeyOk T s B x.q) :
    ∃ ct, A.moduli = C.moduli ∧ mulCt T A C = .ok ct ∧ Carries (T.kr + T.kc) t s ⟨x.q, x.scale * y.scale, x.mag * y.mag,
      x.err * (y.mag + y.err) + x.mag * y.err + 2 ^ (T.kr + T.kc) * (switchNoise T B x.q / (x.scale * y.scale)),
      2 ^ (T.kr + T.kc) * x.bnd * y.bnd + switchNoise T B x.q⟩ (fun j => za j * zb j) ct := by
  obtain ⟨hsA, hmA, mA, a1, a2, a3⟩ := hA
  obtain ⟨hsC, hmC, mC, c1, c2, c3⟩ := hC
  rw [← hq] at c1
  obtain ⟨src, e, g2, hB, g3⟩ := hkey
  obtain ⟨t0, t1, t2, f1, f2, f3, f4, f5⟩ := C44_tensor_decrypts (T.kr + T.kc) (kernelOf T.kr T.kc x.q T.aux T.dnum) A C
    (by rw [a1.moduli]; exact hb.left)
    (fun m hm => by rw [a1.moduli] at hm; exact (hb.four m (List.mem_append_left _ hm)).good.lt)
    (by rw [a1.moduli]; exact a1.red0) (by rw [a1.moduli]; exact a1.red1) (by rw [a1.moduli]; exact c1.red0)
    (by rw [a1.moduli]; exact c1.red1)
  rw [a1.moduli] at f2 f3 f4 f5
  obtain ⟨K, r0, r1, e1, e2, e3, e4, η, e5, e6⟩ := C45_relinearize T.kr T.kc x.q T.aux hb T.dnum hd (T.original x.q) T.deg hdrop
    t0 t1 t2 f2 f3 f4 s 1 (by norm_num) (fun x _ => binary_abs hs x) src g2 e B hB0 hB _ g3
  have hKK : K = kernelOf T.kr T.kc x.q T.aux T.dnum := Except.ok.inj (e1.symm.trans (precomputeMul_ok hb T.dnum hd _ _ hdrop))
  subst hKK
  have hη : ∀ p, p < 2 ^ (T.kr + T.kc) → |(η p : ℝ)| ≤ switchNoise T B x.q := by
    intro p hp
    have h1 := e5 p hp
    rw [mul_one] at h1
    have := noise_real (prod_pos_of hb.right) h1
    rwa [Int.cast_natCast] at this
  refine ⟨{ c0 := r0, c1 := r1, moduli := x.q }, by rw [a1.moduli, c1.moduli], ?_, mul_pos hsA hsC, ?_,
    fun p => imul (T.kr + T.kc) mA mC p + η p, ⟨rfl, e3, e4, ?_⟩, ?_, ?_⟩
  · unfold mulCt
    rw [a1.moduli, e1]
    show (do
      let t ← tensorMultiply (some (kernelOf T.kr T.kc x.q T.aux T.dnum)) A C
      let r ← relinearize (some (kernelOf T.kr T.kc x.q T.aux T.dnum)) t.1 t.2.1 t.2.2 (T.evk x.q)
      pure ({ c0 := r.1, c1 := r.2, moduli := x.q } : Ciphertext)) = _
    rw [f1]
    show (do
      let r ← relinearize (some (kernelOf T.kr T.kc x.q T.aux T.dnum)) t0 t1 t2 (T.evk x.q)
      pure ({ c0 := r.1, c1 := r.2, moduli := x.q } : Ciphertext)) = _
    rw [e2]
    rfl
  · intro j hj
    rw [norm_mul]
    exact mul_le_mul (hmA j hj) (hmC j hj) (norm_nonneg _) ((norm_nonneg _).trans (hmA j hj))
  · intro i hi
    simp only
    rw [e6 i hi, f5 i hi, a1.eq i hi, c1.eq i hi, polyOf_add, polyOf_imul]
  · intro p hp
    push_cast
    exact (abs_add_le _ _).trans (add_le_add (imul_abs_real _ _ _ _ _ a2 c2 p) (hη p hp))
  · refine slots_err (mul_pos hsA hsC) hη ?_
    intro j hj
    have hprod : slotsOf (2 ^ (T.kr + T.kc)) (imul (T.kr + T.kc) mA mC) (x.scale * y.scale) j =
        slotsOf (2 ^ (T.kr + T.kc)) mA x.scale j * slotsOf (2 ^ (T.kr + T.kc)) mC y.scale j := by
      rw [hk]
      exact C71_product t mA mC _ (imul_isNegaMul (t + 1) mA mC) _ _ j
    rw [hprod]
    exact prod_err (a3 j hj) (c3 j hj) (hmA j hj) (hmC j hj)

theorem plain_carries (T : Tools) {t : Nat} (hk : T.kr + T.kc = t + 1) {s : Nat → Int}
    {x y : Budget} {za zb : Nat → ℂ} {A : Ciphertext} {pt : Plaintext}
    (hA : Carries (T.kr + T.kc) t s x za A) (hC : PlainCarries (T.kr + T.kc) t y zb pt) (hq : y.q = x.q)
    (hf : ∀ m ∈ x.q, FourStep T.kr T.kc m) :
    ∃ ct, mulPlainCt A pt = .ok ct ∧ Carries (T.kr + T.kc) t s ⟨x.q, x.scale * y.scale, x.mag * y.mag,
      x.err * (y.mag + y.err) + x.mag * y.err, 2 ^ (T.kr + T.kc) * x.bnd * y.bnd⟩ (fun j => za j * zb j) ct := by
  obtain ⟨hsA, hmA, mA, a1, a2, a3⟩ := hA
  obtain ⟨hsC, hmC, c0, c1, xC, c4, c2, c3⟩ := hC
  rw [hq] at c0 c1 c4
  obtain ⟨r0, r1, u0, u1, b0, b1, -, c⟩ := C44_plain (T.kr + T.kc) x.q (four_moduli hf) (fun m hm => (hf m hm).good) A.c0 A.c1
    pt.data a1.red0 a1.red1 c1
  refine ⟨{ c0 := r0, c1 := r1, moduli := x.q }, ?_, mul_pos hsA hsC, ?_, imul (T.kr + T.kc) mA xC, ⟨rfl, b0, b1, ?_⟩, ?_, ?_⟩
  · unfold mulPlainCt
    rw [a1.moduli, c0, u0, u1]
    rfl
  · intro j hj
    rw [norm_mul]
    exact mul_le_mul (hmA j hj) (hmC j hj) (norm_nonneg _) ((norm_nonneg _).trans (hmA j hj))
  · intro i hi
    simp only
    rw [c i hi, a1.eq i hi, c4 i hi, polyOf_imul]
  · intro p hp
    exact imul_abs_real _ _ _ _ _ a2 c2 p
  · intro j hj
    have hprod : slotsOf (2 ^ (T.kr + T.kc)) (imul (T.kr + T.kc) mA xC) (x.scale * y.scale) j =
        slotsOf (2 ^ (T.kr + T.kc)) mA x.scale j * slotsOf (2 ^ (T.kr + T.kc)) xC y.scale j := by
      rw [hk]
      exact C71_product t mA xC _ (imul_isNegaMul (t + 1) mA xC) _ _ j
    simp only
    rw [hprod]
    exact prod_err (a3 j hj) (c3 j hj) (hmA j hj) (hmC j hj)

theorem rot_index (t r j : Nat) (hj : j < 2 ^ t) : ((j + (2 ^ t - r % 2 ^ t)) % 2 ^ t + r) % 2 ^ t = j := by
  have hpos : 0 < 2 ^ t := by positivity
  have h1 := Nat.mod_lt r hpos
  rw [Nat.mod_add_mod, ← Nat.add_mod_mod, show j + (2 ^ t - r % 2 ^ t) + r % 2 ^ t = j + 2 ^ t by omega, Nat.add_mod_right,
    Nat.mod_eq_of_lt hj]

theorem rotate_carries (T : Tools) {t : Nat} (hk : T.kr + T.kc = t + 1) {s : Nat → Int} (hs : Binary s) (B : Int) (hB0 : 0 ≤ B)
    (r : Nat) {x : Budget} {za : Nat → ℂ} {A : Ciphertext} (hA : Carries (T.kr + T.kc) t s x za A)
    (hb : Basis T.kr T.kc x.q T.aux) (hc : Chain T.kr T.kc (x.q ++ T.aux)) (hkey : RotKeyOk T s B x.q r) :
    ∃ ct, rotateCt T r A = .ok ct ∧ Carries (T.kr + T.kc) t s ⟨x.q, x.scale, x.mag,
      x.err + 2 ^ (T.kr + T.kc) * (rotateNoise T B x.q / x.scale), x.bnd + rotateNoise T B x.q⟩
      (fun j => za ((j + (2 ^ t - r % 2 ^ t)) % 2 ^ t)) ct := by
  obtain ⟨hsA, hmA, m, a1, a2, a3⟩ := hA
  obtain ⟨g, sRot, e0, e1, g2, g3, g4, hrot, hB, hkey⟩ := hkey
  have hpos : 0 < 2 ^ t := by positivity
  obtain ⟨mRot, hmrot⟩ := C42_subst_exists (T.kr + T.kc) g g2 m
  obtain ⟨K, z1, z2⟩ := C46_hmuxrot T.kr T.kc x.q T.aux hb hc
  obtain ⟨ct', w1, w2, w3, w4, η, w5, w6⟩ := z2 s sRot 1 (by norm_num) (fun x _ => binary_abs hs x)
    1 r g g2 g3 g4 hrot e0 e1 B hB0 hB _ hkey A a1.moduli a1.red0 a1.red1
  have hη : ∀ p, p < 2 ^ (T.kr + T.kc) → |(η p : ℝ)| ≤ rotateNoise T B x.q := by
    intro p hp
    have := noise_real (prod_pos_of hb.right) (w5 p hp)
    rwa [Int.cast_natCast] at this
  have hMrot : ∀ p, p < 2 ^ (T.kr + T.kc) → |(mRot p : ℝ)| ≤ x.bnd := by
    intro p hp
    have hcop : Nat.Coprime g (2 ^ (T.kr + T.kc)) := Nat.Coprime.pow_right _ (by
      rw [Nat.coprime_two_right]; exact Nat.odd_iff.2 g2)
    have : p ∈ (Finset.range (2 ^ (T.kr + T.kc))).image (fun j => g * j % 2 ^ (T.kr + T.kc)) := by
      rw [image_mul_mod _ _ hcop]; exact Finset.mem_range.2 hp
    obtain ⟨j, hj, rfl⟩ := Finset.mem_image.1 this
    have hj' := Finset.mem_range.1 hj
    rw [hmrot j hj']
    split
    · exact a2 j hj'
    · rw [Int.cast_neg, abs_neg]; exact a2 j hj'
  refine ⟨ct', ?_, hsA, fun j _ => hmA _ (Nat.mod_lt _ hpos), fun p => mRot p + η p, ⟨w2, w3, w4, ?_⟩, ?_, slots_err hsA hη ?_⟩
  · unfold rotateCt
    rw [a1.moduli, z1]
    exact w1
  · intro i hi
    rw [w6 i hi, a1.eq i hi, sigma_isSubst _ _ g g2 _ _ hmrot, polyOf_add]
    push_cast
    ring
  · intro p hp
    push_cast
    exact (abs_add_le _ _).trans (add_le_add (hMrot p hp) (hη p hp))
  · intro j hj
    obtain ⟨i, hi⟩ : ∃ i, i = (j + (2 ^ t - r % 2 ^ t)) % 2 ^ t := ⟨_, rfl⟩
    have hij : (i + r) % 2 ^ t = j := by rw [hi]; exact rot_index t r j hj
    rw [← hi]
    have hit : i < 2 ^ t := by rw [hi]; exact Nat.mod_lt _ hpos
    have := a3 i hit
    rw [hk] at this ⊢ hmrot g4
    have hper : ∀ (c i : Nat), slotsOf (2 ^ (t + 1)) mRot x.scale (i + 2 ^ t * c) = slotsOf (2 ^ (t + 1)) mRot x.scale i := by
      intro c
      induction c with
      | zero => intro i; simp
      | succ c ih => intro i; rw [Nat.mul_succ, ← Nat.add_assoc, C71_period, ih]
    have e : slotsOf (2 ^ (t + 1)) mRot x.scale j = slotsOf (2 ^ (t + 1)) m x.scale i := by
      rw [← C71_rotate_right t r g g4 m mRot hmrot x.scale i]
      conv_rhs => rw [← Nat.mod_add_div (i + r) (2 ^ t), hper, hij]
    rw [e]
    exact this

theorem conj_carries (T : Tools) {t : Nat} (hk : T.kr + T.kc = t + 1) {s : Nat → Int} (hs : Binary s) (B : Int) (hB0 : 0 ≤ B)
    {x : Budget} {za : Nat → ℂ} {A : Ciphertext} (hA : Carries (T.kr + T.kc) t s x za A)
    (hb : Basis T.kr T.kc x.q T.aux) (hc : Chain T.kr T.kc (x.q ++ T.aux)) (hd : 0 < T.dnum)
    (hparts : (T.dnum - 1) * ((x.q.length + T.dnum - 1) / T.dnum) < x.q.length) (hkey : ConjKeyOk T s B x.q) :
    ∃ ct, conjCt T A = .ok ct ∧ Carries (T.kr + T.kc) t s ⟨x.q, x.scale, x.mag,
      x.err + 2 ^ (T.kr + T.kc) * (switchNoise T B x.q / x.scale), x.bnd + switchNoise T B x.q⟩
      (fun j => (starRingEnd ℂ) (za j)) ct := by
  obtain ⟨hsA, hmA, m, a1, a2, a3⟩ := hA
  obtain ⟨sInv, src, e, hs0, hsj, hsrc, hB, hkey⟩ := hkey
  have hN := Nat.one_le_two_pow (n := T.kr + T.kc)
  obtain ⟨S, R, r1, r2, r3⟩ := C43_conjugate T.kr T.kc x.q T.aux hb hc T.dnum hd hparts
  obtain ⟨mInv, hmInv⟩ : ∃ mInv : Nat → Int, mInv = fun j => if j = 0 then m 0 else -m (2 ^ (T.kr + T.kc) - j) := ⟨_, rfl⟩
  have hm0 : mInv 0 = m 0 := by rw [hmInv]; simp
  have hmj : ∀ j, 0 < j → j < 2 ^ (T.kr + T.kc) → mInv (2 ^ (T.kr + T.kc) - j) = -m j := by
    intro j h1 h2
    rw [hmInv]
    simp only
    rw [if_neg (by omega), show 2 ^ (T.kr + T.kc) - (2 ^ (T.kr + T.kc) - j) = j by omega]
  have hMI : ∀ p, p < 2 ^ (T.kr + T.kc) → |(mInv p : ℝ)| ≤ x.bnd := by
    intro p hp
    rw [hmInv]
    simp only
    split
    · exact a2 0 (by omega)
    · rw [Int.cast_neg, abs_neg]; exact a2 _ (by omega)
  obtain ⟨ct', c1, c2, c3, c4, η, c5, c6⟩ := r3 (bcPairs x.q T.aux T.dnum) 0
    (fun part hp => by rw [Nat.zero_add]; exact bcPairs_eq x.q T.aux T.dnum hd part hp) s sInv 1 (by norm_num)
    (fun x _ => binary_abs hs x) hs0 hsj src hsrc e B hB0 hB _ hkey A a1.moduli a1.red0
    a1.red1 m mInv hm0 hmj a1.eq
  have hη : ∀ p, p < 2 ^ (T.kr + T.kc) → |(η p : ℝ)| ≤ switchNoise T B x.q := by
    intro p hp
    have h1 := c5 p hp
    rw [mul_one] at h1
    have := noise_real (prod_pos_of hb.right) h1
    rwa [Int.cast_natCast] at this
  refine ⟨ct', ?_, hsA, ?_, fun p => mInv p + η p, ⟨c2, c3, c4, c6⟩, ?_, slots_err hsA hη ?_⟩
  · unfold conjCt
    rw [a1.moduli, r1]
    show (do
      let R ← Rescale.precompute (x.q ++ T.aux) T.aux.length (2 ^ T.kr) (2 ^ T.kc)
      conjugate S R (2 ^ (T.kr + T.kc)) A (T.conjKey x.q) T.aux (bcPairs x.q T.aux T.dnum) (some (x.q ++ T.aux)) 0) = _
    rw [r2]
    exact c1
  · intro j hj
    rw [RCLike.norm_conj]
    exact hmA j hj
  · intro p hp
    push_cast
    exact (abs_add_le _ _).trans (add_le_add (hMI p hp) (hη p hp))
  · intro j hj
    have := a3 j hj
    rw [hk] at this ⊢ hmj
    rw [C71_conjugate t m mInv hm0 hmj, ← map_sub, RCLike.norm_conj]
    exact this

theorem rescale_carries (T : Tools) {t : Nat} {s : Nat → Int} (hs : Binary s)
    (n : Nat) {x : Budget} {za : Nat → ℂ} {A : Ciphertext} (hA : Carries (T.kr + T.kc) t s x za A) (hn : n ≤ x.q.length)
    (hb : Basis T.kr T.kc (x.q.take (x.q.length - n)) (x.q.drop (x.q.length - n))) (hc : Chain T.kr T.kc x.q) :
    ∃ ct, rescaleBy T n A = .ok ct ∧ Carries (T.kr + T.kc) t s ⟨x.q.take (x.q.length - n),
      x.scale / (x.q.drop (x.q.length - n)).prod, x.mag,
      x.err + 2 ^ (T.kr + T.kc) * (rescaleNoise T n / (x.scale / (x.q.drop (x.q.length - n)).prod)),
      x.bnd / (x.q.drop (x.q.length - n)).prod + rescaleNoise T n⟩ za ct := by
  obtain ⟨hsA, hmA, m, a1, a2, a3⟩ := hA
  have hlen : (x.q.drop (x.q.length - n)).length = n := by rw [List.length_drop]; omega
  have happ := List.take_append_drop (x.q.length - n) x.q
  generalize x.q.take (x.q.length - n) = q at *
  generalize x.q.drop (x.q.length - n) = p at *
  rw [← happ] at hc a1
  obtain ⟨K, k1, k2⟩ := C72_rescale T.kr T.kc q p hb hc
  obtain ⟨ct', m', c1, c2, c3, c4⟩ := k2 s hs A m a1
  have hP := prod_pos_of hb.right
  have hPr : (0 : ℝ) < p.prod := by exact_mod_cast hP
  have hsc : 0 < x.scale / p.prod := div_pos hsA hPr
  refine ⟨ct', ?_, hsc, hmA, m', c2, ?_, ?_⟩
  · unfold rescaleBy
    rw [a1.moduli, ← hlen, k1]
    exact c1
  · intro i hi
    have h1 : ((|p.prod * m' i - m i| : ℤ) : ℝ) ≤ ((p.prod * (2 + p.length * (1 + 2 ^ (T.kr + T.kc))) : ℤ) : ℝ) := by
      exact_mod_cast c3 i hi
    rw [Int.cast_abs, Int.cast_sub, Int.cast_mul, Int.cast_mul, Int.cast_natCast] at h1
    have h2 := a2 i hi
    have h3 : |(p.prod : ℝ) * m' i| ≤ x.bnd + p.prod * rescaleNoise T n := by
      have h4 := abs_add_le ((p.prod : ℝ) * m' i - m i) (m i)
      rw [sub_add_cancel] at h4
      have h5 : (((2 + p.length * (1 + 2 ^ (T.kr + T.kc)) : ℤ)) : ℝ) = rescaleNoise T n := by
        rw [hlen]; unfold rescaleNoise; push_cast; ring
      rw [h5] at h1
      linarith
    rw [abs_mul, abs_of_pos hPr] at h3
    simp only
    rw [← mul_le_mul_iff_of_pos_left hPr]
    refine h3.trans (le_of_eq ?_)
    field_simp
  · intro j hj
    have h1 := c4 x.scale hsA j
    have h2 := a3 j hj
    simp only
    rw [← sub_add_sub_cancel _ (slotsOf (2 ^ (T.kr + T.kc)) m x.scale j)]
    refine ((norm_add_le _ _).trans (add_le_add h1 h2)).trans (le_of_eq ?_)
    unfold rescaleNoise
    rw [hlen, add_comm]

/-! ## Programs -/

theorem except_bind {ε α β : Type} {x : Except ε α} {a : α} {f : α → Except ε β} (h : x = .ok a) : (x >>= f) = f a := by
  rw [h]; rfl

/-- C79: every program whose operations are applicable runs without error, and its result holds the value of the program
on the slots, within the budget. -/
theorem C79_circuit (T : Tools) (t : Nat) (hk : T.kr + T.kc = t + 1) (s : Nat → Int) (hs : Binary s) (B : Int) (hB0 : 0 ≤ B)
    (ins plains : List Budget) (cts : List Ciphertext) (pts : List Plaintext) (zs ps : List (Nat → ℂ))
    (hci : ∀ i, i < ins.length → ∃ ct, cts[i]? = some ct ∧
      Carries (T.kr + T.kc) t s (ins.getD i ⟨[], 1, 0, 0, 0⟩) (zs.getD i (fun _ => 0)) ct)
    (hpi : ∀ i, i < plains.length → ∃ pt, pts[i]? = some pt ∧
      PlainCarries (T.kr + T.kc) t (plains.getD i ⟨[], 1, 0, 0, 0⟩) (ps.getD i (fun _ => 0)) pt)
    (e : Expr) (he : Fits T s B ins plains e) :
    ∃ ct, run T cts pts e = .ok ct ∧ Carries (T.kr + T.kc) t s (budget T B ins plains e) (eval t zs ps e) ct := by
  induction e with
  | input i =>
    obtain ⟨ct, h1, h2⟩ := hci i he
    exact ⟨ct, by rw [run, h1], h2⟩
  | add a b iha ihb =>
    obtain ⟨h1, h2, h3, h4, h5⟩ := he
    obtain ⟨x, x1, x2⟩ := iha h1
    obtain ⟨y, y1, y2⟩ := ihb h2
    obtain ⟨ct, c1, c2⟩ := add_carries x2 y2 h3 h4 h5
    refine ⟨ct, ?_, c2⟩
    rw [run, except_bind x1, except_bind y1, c1]
  | mul a b iha ihb =>
    obtain ⟨h1, h2, h3, h4, h5, h6, h7⟩ := he
    obtain ⟨x, x1, x2⟩ := iha h1
    obtain ⟨y, y1, y2⟩ := ihb h2
    obtain ⟨ct, c0, c1, c2⟩ := mul_carries T hk hs B hB0 x2 y2 h3 h4 h5 h6 h7
    refine ⟨ct, ?_, c2⟩
    rw [run, except_bind x1, except_bind y1, if_neg (by simp [c0])]
    exact c1
  | mulPlain a i iha =>
    obtain ⟨h1, h2, h3, h4⟩ := he
    obtain ⟨x, x1, x2⟩ := iha h1
    obtain ⟨pt, p1, p2⟩ := hpi i h2
    obtain ⟨ct, c1, c2⟩ := plain_carries T hk x2 p2 h3 h4
    refine ⟨ct, ?_, c2⟩
    rw [run, except_bind x1, p1, ← c1]
  | rotate r a iha =>
    obtain ⟨h1, h2, h3, h4⟩ := he
    obtain ⟨x, x1, x2⟩ := iha h1
    obtain ⟨ct, c1, c2⟩ := rotate_carries T hk hs B hB0 r x2 h2 h3 h4
    refine ⟨ct, ?_, c2⟩
    rw [run, except_bind x1, c1]
  | conj a iha =>
    obtain ⟨h1, h2, h3, h4, h5, h6⟩ := he
    obtain ⟨x, x1, x2⟩ := iha h1
    obtain ⟨ct, c1, c2⟩ := conj_carries T hk hs B hB0 x2 h2 h3 h4 h5 h6
    refine ⟨ct, ?_, c2⟩
    rw [run, except_bind x1, c1]
  | rescale n a iha =>
    obtain ⟨h1, h2, h3, h4⟩ := he
    obtain ⟨x, x1, x2⟩ := iha h1
    obtain ⟨ct, c1, c2⟩ := rescale_carries T hs n x2 h2 h3 h4
    refine ⟨ct, ?_, c2⟩
    rw [run, except_bind x1, c1]

/-- C79: decryption and decoding of what carries `z` return `z` up to the error, when twice the coefficient bound stays
below the product of the moduli. -/
theorem C79_decode (k t : Nat) (hk : k = t + 1) (s : Nat → Int) (b : Budget) (z : Nat → ℂ) (ct : Ciphertext)
    (hct : Carries k t s b z ct) (ms : List Nat) (h : Moduli k ms) (hnd : ms.Nodup) (n : Nat) (hn : b.q = ms.take n) (hne : b.q ≠ [])
    (sk : SecretKey) (hsk : HoldsKey k ms s sk) (hrange : 2 * b.bnd < b.q.prod) (numSlots : Nat) (hs : numSlots ≤ 2 ^ t) :
    ∃ pt out, decrypt (2 ^ k) sk ct = .ok pt ∧ decode (some (b.scale, numSlots)) (2 ^ k) pt false = .ok out ∧
      out.length = numSlots ∧ ∀ j, j < numSlots → ‖out.getD j 0 - z j‖ ≤ b.err := by
  obtain ⟨-, -, m, h1, h2, h3⟩ := hct
  rw [hn] at h1 hne hrange
  obtain ⟨pt, p1, p2⟩ := C72_decode k t hk ms h hnd s sk hsk n hne ct m h1 (by
    intro p hp
    have := (abs_le.1 (h2 p hp))
    have a1 : -((ms.take n).prod : ℝ) < 2 * (m p : ℝ) := by linarith
    have a2 : 2 * (m p : ℝ) ≤ ((ms.take n).prod : ℝ) := by linarith
    generalize (ms.take n).prod = Q at a1 a2
    exact ⟨by exact_mod_cast a1, by exact_mod_cast a2⟩) b.scale numSlots
  refine ⟨pt, _, p1, p2, by simp [hs], ?_⟩
  intro j hj
  have hjt : j < 2 ^ t := by omega
  rw [show (((List.range (2 ^ t)).map (slotsOf (2 ^ k) m b.scale)).take numSlots).getD j 0 = slotsOf (2 ^ k) m b.scale j by
    simp [List.getD, hj, hjt]]
  exact h3 j hjt

/-- C79: encoded plaintexts and fresh encryptions carry their slots. -/
theorem C79_inputs (k t : Nat) (hk : k = t + 1) (ms : List Nat) (h : Moduli k ms)
    (s e : Nat → ℤ) (a : Mat) (Bs Be Bv : ℤ) (hBs0 : 0 ≤ Bs) (hBe0 : 0 ≤ Be) (hBv0 : 0 ≤ Bv)
    (hs : ∀ p, p < 2 ^ k → |s p| ≤ Bs) (he : ∀ p, p < 2 ^ k → |e p| ≤ Be)
    (rnd : ℝ → ℤ) (hr : ∀ x, |(rnd x : ℝ) - x| ≤ 1 / 2) (scale : ℝ) (hsc : 0 < scale) :
    ∃ pk sk, keygen (2 ^ k) ms s e a = .ok (pk, sk) ∧ HoldsKey k ms s sk ∧
    ∀ (n : Nat) (slots : List ℂ), slots.length ≤ 2 ^ t → ∀ (M : ℝ), 0 ≤ M → (∀ z ∈ slots, ‖z‖ ≤ M) →
    ∀ (v e0 e1 : Nat → ℤ), (∀ p, p < 2 ^ k → |v p| ≤ Bv ∧ |e0 p| ≤ Be ∧ |e1 p| ≤ Be) →
    ∃ pt ct, encode rnd (2 ^ k) (ms.take n) scale slots = .ok pt ∧ encrypt (2 ^ k) pk pt v e0 e1 = .ok ct ∧
      PlainCarries k t ⟨ms.take n, scale, M, 2 ^ k * (1 / 2 / scale), M * scale + 1 / 2⟩ (fun j => slots.getD j 0) pt ∧
      Carries k t s ⟨ms.take n, scale, M, 2 ^ k * ((1 / 2 + (2 ^ k * Bv * Be + Be + 2 ^ k * Be * Bs)) / scale),
        M * scale + 1 / 2 + (2 ^ k * Bv * Be + Be + 2 ^ k * Be * Bs)⟩ (fun j => slots.getD j 0) ct := by
  obtain ⟨pk, sk, h1, h2, h3⟩ := C72_encrypt k t hk ms h s e a Bs Be Bv hBs0 hBe0 hBv0 hs he rnd hr scale hsc
  refine ⟨pk, sk, h1, h2, ?_⟩
  intro n slots hl M hM0 hM v e0 e1 hv
  obtain ⟨pt, ct, m, p1, p2, p3, p4, p5⟩ := h3 n slots hl M hM0 hM v e0 e1 hv _ le_rfl
  have hmag : ∀ j, ‖slots.getD j 0‖ ≤ M := by
    intro j
    by_cases hj : j < slots.length
    · rw [List.getD_eq_getElem _ _ hj]; exact hM _ (List.getElem_mem _)
    · rw [List.getD_eq_default _ _ (by omega), norm_zero]; exact hM0
  subst hk
  obtain ⟨pt', x, q1, q2, q3, q4, q5, q6⟩ := C69_encode t (ms.take n) (h.take n) rnd hr scale hsc slots hl M hM0 hM
  have hpt : pt' = pt := Except.ok.inj (q1.symm.trans p1)
  subst hpt
  push_cast at p4 p5
  exact ⟨pt', ct, p1, p2, ⟨hsc, fun j _ => hmag j, q2, q3, x, q4, q5, q6⟩, ⟨hsc, fun j _ => hmag j, m, p3, p4, p5⟩⟩

/-- The secret key at a lower level. -/
theorem key_take {k : Nat} {ms : List Nat} {s : Nat → Int} {sk : SecretKey} (h : HoldsKey k ms s sk) (n : Nat) :
    HoldsKey k (ms.take n) s { data := sk.data, moduli := ms.take n } := by
  have hl : ∀ {i}, i < (ms.take n).length → i < ms.length ∧ (ms.take n).getD i 0 = ms.getD i 0 := by
    intro i hi
    have : i < n ∧ i < ms.length := by rw [List.length_take] at hi; omega
    exact ⟨this.2, by simp [List.getD, List.getElem?_take, this.1]⟩
  refine ⟨rfl, ?_, ?_⟩
  · intro i hi p hp
    have := h.reduced i (hl hi).1 p hp
    rwa [(hl hi).2]
  · intro i hi
    rw [(hl hi).2]
    exact h.ring i (hl hi).1

/-- C79: the keys that `gen_evaluation_key`, `gen_conjugate_key` and `gen_hmuxrot_key` generate are valid. -/
theorem C79_keys (T : Tools) (q : List Nat) (hb : Basis T.kr T.kc q T.aux) (hd : 0 < T.dnum) (s : Nat → Int) (hs : Binary s)
    (sk : SecretKey) (hsk : HoldsKey (T.kr + T.kc) q s sk) (B : Int)
    (rand : Nat → Mat × (Nat → Int)) (hB : ∀ part p, |(rand part).2 p| ≤ B) :
    (∃ keys, genEvaluationKey (2 ^ (T.kr + T.kc)) sk q T.aux T.dnum rand = .ok keys ∧ (T.evk q = keys → MulKeyOk T s B q)) ∧
    (∃ keys, genConjugateKey (2 ^ (T.kr + T.kc)) sk q T.aux T.dnum rand = .ok keys ∧ (T.conjKey q = keys → ConjKeyOk T s B q)) ∧
    (∀ r, T.aux.prod < 2 ^ 64 → ∃ ext key, extendSecretKey (2 ^ (T.kr + T.kc)) sk (q ++ T.aux) = .ok ext ∧
      genHmuxrotKey (2 ^ (T.kr + T.kc)) sk 1 r q T.aux (rand 0) (rand 1) (some ext) = .ok key ∧
      (T.rotKey q r = key → RotKeyOk T s B q r)) := by
  have hN := Nat.one_le_two_pow (n := T.kr + T.kc)
  have hlen : q.length = sk.moduli.length := by rw [hsk.moduli]
  refine ⟨?_, ?_, ?_⟩
  · obtain ⟨keys, src, h1, h2, h3⟩ := C45_generated_evaluation_key (T.kr + T.kc) q T.aux hb.left hb.right hb.neQ T.dnum hd s hs sk
      hsk rand
    exact ⟨keys, h1, fun hk => ⟨src, _, h2, fun part _ p _ => hB part p, hk ▸ h3⟩⟩
  · obtain ⟨keys, h1, h3⟩ := C45_generated_keys (T.kr + T.kc) q T.aux hb.left hb.right hb.neQ T.dnum hd s hs sk hsk
      { data := fun i => Automorphism.flip (2 ^ (T.kr + T.kc)) (sk.data i), moduli := sk.moduli } hlen
      (fun i hi t ht => by simp only [Automorphism.flip]; exact hsk.reduced i hi _ (by omega)) rand
    obtain ⟨sInv, hsInv⟩ : ∃ sInv : Nat → Int, sInv = fun j => if j = 0 then s 0 else -s (2 ^ (T.kr + T.kc) - j) := ⟨_, rfl⟩
    have h0 : sInv 0 = s 0 := by rw [hsInv]; simp
    have hj : ∀ j, 0 < j → j < 2 ^ (T.kr + T.kc) → sInv (2 ^ (T.kr + T.kc) - j) = -s j := by
      intro j h1 h2
      rw [hsInv]
      simp only
      rw [if_neg (by omega), show 2 ^ (T.kr + T.kc) - (2 ^ (T.kr + T.kc) - j) = j by omega]
    refine ⟨keys, h1, fun hk => ⟨sInv, _, _, h0, hj, ?_, fun part _ p _ => hB part p, hk ▸ h3⟩⟩
    intro i hi
    simp only
    rw [flip_ringOf (hb.left.at hi).1, hsk.ring i hi]
    exact sigma_isSubst _ _ _ _ s sInv (isSubst_inv _ s sInv h0 hj)
  · intro r hP
    obtain ⟨ext, x1, x2⟩ := C40_extend (T.kr + T.kc) q T.aux hb.left hb.right hb.neQ s hs sk hsk
    obtain ⟨g, g1, g2, g3, g4⟩ := rotationGenerator_spec (T.kr + T.kc) r
    obtain ⟨sRot, hrot⟩ := C42_subst_exists (T.kr + T.kc) g g2 s
    obtain ⟨key, y1, y2⟩ := C46_generated_key (T.kr + T.kc) q T.aux hb.left hb.right s sk hsk ext x2 1 r le_rfl hP g g3 g4 sRot hrot
      (rand 0) (rand 1)
    exact ⟨ext, key, x1, y1, fun hk => ⟨g, sRot, _, _, g2, g3, g4, hrot, fun p _ => ⟨hB 0 p, hB 1 p⟩, hk ▸ y2⟩⟩

/-! ## A program that meets the hypotheses -/

theorem fourStep2 (m : Nat) (hm : m ∈ [40961, 65537, 12289]) : FourStep 1 1 m := by
  simp only [List.mem_cons, List.not_mem_nil, or_false] at hm
  rcases hm with rfl | rfl | rfl
  · exact ⟨fourStep_40961.prime, by decide, fourStep_40961.good, by decide +kernel, by decide +kernel, by norm_num, by norm_num⟩
  · exact ⟨fourStep_65537.prime, by decide, fourStep_65537.good, by decide +kernel, by decide +kernel, by norm_num, by norm_num⟩
  · exact ⟨fourStep_12289.prime, by decide, fourStep_12289.good, by decide +kernel, by decide +kernel, by norm_num, by norm_num⟩

theorem basis2 : Basis 1 1 [40961, 65537] [12289] ∧ Basis 1 1 [40961] [65537] ∧ Chain 1 1 ([40961, 65537] ++ [12289]) ∧
    Chain 1 1 [40961, 65537] := by
  refine ⟨⟨fun m hm => fourStep2 m hm, by decide, ?_, by decide, by decide, by decide⟩,
    ⟨fun m hm => fourStep2 m ?_, by decide, ?_, by decide, by decide, by decide⟩,
    ⟨fun m hm => fourStep2 m hm, by decide, by decide⟩, ⟨fun m hm => fourStep2 m ?_, by decide, by decide⟩⟩
  · intro m hm
    simp only [List.cons_append, List.nil_append, List.mem_cons, List.not_mem_nil, or_false] at hm
    rcases hm with rfl | rfl | rfl <;> decide +kernel
  · simp only [List.cons_append, List.nil_append, List.mem_cons, List.not_mem_nil, or_false] at hm ⊢
    tauto
  · intro m hm
    simp only [List.cons_append, List.nil_append, List.mem_cons, List.not_mem_nil, or_false] at hm
    rcases hm with rfl | rfl <;> decide +kernel
  · simp only [List.mem_cons, List.not_mem_nil, or_false] at hm ⊢
    tauto

/-- Two slots: the conjugate of the rotated square of a ciphertext, rescaled. With fresh keys for a
non-zero secret all hypotheses of `C79_circuit` and `C79_decode` hold. -/
example : ∃ (T : Tools) (s : Nat → Int) (sk : SecretKey) (cts : List Ciphertext) (ins : List Budget),
    T.kr + T.kc = 1 + 1 ∧ Binary s ∧ s 1 = 1 ∧ HoldsKey 2 [40961, 65537] s sk ∧ ins.length = 1 ∧
    (∀ i, i < ins.length → ∃ ct, cts[i]? = some ct ∧ Carries (T.kr + T.kc) 1 s (ins.getD i ⟨[], 1, 0, 0, 0⟩)
      (([fun j => ([3, Complex.I] : List ℂ).getD j 0] : List (Nat → ℂ)).getD i (fun _ => 0)) ct) ∧
    Fits T s 1 ins [] (.rescale 1 (.conj (.rotate 1 (.mul (.input 0) (.input 0))))) ∧
    2 * (budget T 1 ins [] (.rescale 1 (.conj (.rotate 1 (.mul (.input 0) (.input 0)))))).bnd <
      (budget T 1 ins [] (.rescale 1 (.conj (.rotate 1 (.mul (.input 0) (.input 0)))))).q.prod ∧
    (budget T 1 ins [] (.rescale 1 (.conj (.rotate 1 (.mul (.input 0) (.input 0)))))).q = [40961, 65537].take 1 ∧
    eval 1 [fun j => ([3, Complex.I] : List ℂ).getD j 0] [] (.rescale 1 (.conj (.rotate 1 (.mul (.input 0) (.input 0))))) 1 = 9 := by
  obtain ⟨s, hs⟩ : ∃ s : Nat → Int, s = fun p => if p = 1 then 1 else 0 := ⟨_, rfl⟩
  have hb : Binary s := fun p => by rw [hs]; by_cases hp : p = 1 <;> simp [hp]
  obtain ⟨b1, b2, c1, c2⟩ := basis2
  obtain ⟨pk, sk, -, h2, h3⟩ := C79_inputs 2 1 rfl [40961, 65537] b1.left s (fun _ => 1) (fun _ _ => 7) 1 1 1
    (by norm_num) (by norm_num) (by norm_num) (fun p _ => binary_abs hb p)
    (fun _ _ => by norm_num) round (fun x => by rw [abs_sub_comm]; exact abs_sub_round x) 1000 (by norm_num)
  obtain ⟨-, ct, -, -, -, e3⟩ := h3 2 [3, Complex.I] (by simp) 3 (by norm_num) (by simp) (fun _ => 1) (fun _ => -1) (fun _ => 1)
    (fun _ _ => by norm_num)
  have e4 : Carries 2 1 s ⟨[40961, 65537], 1000, 3, 1, 3010⟩ (fun j => ([3, Complex.I] : List ℂ).getD j 0) ct := by
    obtain ⟨hsc, hm, m, m1, m2, m3⟩ := e3
    exact ⟨hsc, hm, m, m1, fun p hp => (m2 p hp).trans (by norm_num), fun j hj => (m3 j hj).trans (by norm_num)⟩
  have key (T : Tools) (h1 : T.kr = 1) (h2' : T.kc = 1) (h3 : T.aux = [12289]) (h4 : T.dnum = 2) :=
    C79_keys T [40961, 65537] (by rw [h1, h2', h3]; exact b1) (by rw [h4]; norm_num) s hb sk (by rw [h1, h2']; exact h2) 1
      (fun i => (fun _ _ => i, fun _ => 1)) (fun _ _ => by norm_num)
  obtain ⟨⟨evk, u1, -⟩, ⟨ck, u2, -⟩, u3⟩ := key ⟨1, 1, [12289], 2, fun q => q ++ [12289], 1, fun _ => ⟨[], [], []⟩, fun _ => ⟨[], [], []⟩,
    fun _ _ => ⟨⟨fun _ _ => 0, fun _ _ => 0, []⟩, ⟨fun _ _ => 0, fun _ _ => 0, []⟩⟩⟩ rfl rfl rfl rfl
  obtain ⟨ext, rk, u3, u4, -⟩ := u3 1 (by simp)
  obtain ⟨T, hT⟩ : ∃ T : Tools, T = ⟨1, 1, [12289], 2, fun q => q ++ [12289], 1, fun _ => evk, fun _ => ck, fun _ _ => rk⟩ := ⟨_, rfl⟩
  obtain ⟨⟨evk', v1, w1⟩, ⟨ck', v2, w2⟩, v3⟩ := key T (by rw [hT]) (by rw [hT]) (by rw [hT]) (by rw [hT])
  obtain ⟨ext', rk', v3, v4, w3⟩ := v3 1 (by rw [hT]; simp)
  subst hT
  have ee := Except.ok.inj (u3.symm.trans v3)
  subst ee
  refine ⟨_, s, sk, [ct], [⟨[40961, 65537], 1000, 3, 1, 3010⟩], rfl, hb, by rw [hs]; simp, h2, rfl, ?_, ⟨⟨⟨⟨?_, ?_, rfl, b1, ?_,
    ⟨Nat.one_pos, [12289], rfl, rfl⟩, w1 (Except.ok.inj (u1.symm.trans v1))⟩, b1, c1, w3 (Except.ok.inj (u4.symm.trans v4))⟩, b1, c1, ?_, ?_,
    w2 (Except.ok.inj (u2.symm.trans v2))⟩, ?_, b2, c2⟩, ?_, rfl, ?_⟩
  · intro i hi
    have : i = 0 := by simp at hi; omega
    subst this
    exact ⟨ct, rfl, e4⟩
  · show 0 < 1; norm_num
  · show 0 < 1; norm_num
  · show 0 < 2; norm_num
  · show 0 < 2; norm_num
  · show (2 - 1) * ((2 + 2 - 1) / 2) < 2; norm_num
  · show 1 ≤ 2; norm_num
  · have n1 : switchNoise ⟨1, 1, [12289], 2, fun q => q ++ [12289], 1, fun _ => evk, fun _ => ck, fun _ _ => rk⟩ 1 [40961, 65537] ≤ 40 := by
      have : (∑ part ∈ Finset.range 2, 2 ^ (1 + 1) * (((partModuli [40961, 65537] 2 part).length *
        (partModuli [40961, 65537] 2 part).prod : Nat) : Int) * 1) +
        (([12289].length * [12289].prod : Nat) : Int) * (1 + 2 ^ (1 + 1)) = 487437 := by decide
      unfold switchNoise
      rw [this]
      norm_num
    have n2 : rotateNoise ⟨1, 1, [12289], 2, fun q => q ++ [12289], 1, fun _ => evk, fun _ => ck, fun _ _ => rk⟩ 1 [40961, 65537] ≤ 3600000 := by
      unfold rotateNoise rotNoise
      norm_num
    simp only [budget, rescaleNoise, List.getD_cons_zero, List.take, List.length_cons, List.length_nil, List.drop] at n1 n2 ⊢
    norm_num at n1 n2 ⊢
    linarith
  · show (starRingEnd ℂ) (3 * 3) = 9
    rw [show (3 * 3 : ℂ) = 9 by norm_num]
    exact map_ofNat _ 9

end Verif.Props
