import Verif.Model.X64
import Verif.Props.Polynomial

/-!
# C109: the flag `jax_enable_x64` and the TFHE functions
-/

namespace Verif.Props
open Verif.Arith Verif.MatrixUtils Verif.PolymulKernel Verif.Decomposition Verif.Rlwe Verif.Rgsw
open Verif.X64 (Module flagAfter wide matmulCheck matmulValue polyMulCheck polyMulValue rightWidth)
open Verif.Nega Polynomial

/-! ## Low words -/

theorem wide_ge (x64 : Bool) : 32 ≤ wide x64 := by cases x64 <;> decide

theorem low_id {w : Nat} (hw : 32 ≤ w) (x : W) : (x.setWidth w).setWidth 32 = x := by
  apply BitVec.eq_of_getLsbD_eq
  intro i hi
  simp only [BitVec.getLsbD_setWidth, hi, decide_true, Bool.true_and]
  rw [decide_eq_true (by omega), Bool.true_and]

theorem low_shift {w : Nat} (hw : 32 ≤ w) (x : W) (s : Nat) :
    ((x.setWidth w) <<< s).setWidth 32 = x <<< s := by
  apply BitVec.eq_of_getLsbD_eq
  intro i hi
  have hiw : i < w := by omega
  have h2 : i - s < w := by omega
  rw [BitVec.getLsbD_setWidth, BitVec.getLsbD_shiftLeft, BitVec.getLsbD_shiftLeft, BitVec.getLsbD_setWidth]
  simp only [hi, hiw, h2, decide_true, Bool.true_and]

theorem low_sum {ι : Type*} {w : Nat} (hw : 32 ≤ w) (s : Finset ι) (f : ι → BitVec w) :
    (∑ i ∈ s, f i).setWidth 32 = ∑ i ∈ s, (f i).setWidth 32 := by
  classical
  induction s using Finset.induction_on with
  | empty => simp
  | insert a s ha ih => rw [Finset.sum_insert ha, Finset.sum_insert ha, BitVec.setWidth_add _ _ hw, ih]

theorem low_matmul (x64 : Bool) {n k : Nat} (lhs : Fin n → W) (rhs : Fin n → Fin k → W) (j : Fin k) :
    (matmulValue x64 lhs rhs j).setWidth 32 = i32AsU8Matmul lhs rhs j := by
  unfold matmulValue i32AsU8Matmul
  rw [low_sum (wide_ge x64)]
  apply Finset.sum_congr rfl
  intro p _
  rw [low_sum (wide_ge x64)]
  exact Finset.sum_congr rfl (fun q _ => low_shift (wide_ge x64) _ _)

theorem low_left (x64 : Bool) {n : Nat} (a : Fin n → W) (i j : Fin n) :
    (X64.leftMatrix x64 a i j).setWidth 32 = BitVec.ofInt 32 (generateSignMatrix n j i) * toeplitz a i j := by
  unfold X64.leftMatrix
  rw [BitVec.setWidth_mul _ _ (wide_ge x64), low_id (wide_ge x64)]
  congr 1
  cases x64
  · exact BitVec.setWidth_eq _
  · unfold generateSignMatrix
    split <;> split <;> decide

theorem low_polyMul (x64 : Bool) (tpu : Int) {n : Nat} (a b : Fin n → W) (c : Fin n) :
    (polyMulValue x64 tpu a b c).setWidth 32 = polyMul tpu a b c := by
  unfold polyMulValue polyMul
  split
  · exact low_matmul x64 _ _ c
  · rw [low_matmul]
    unfold toeplitzPolyMul
    simp only [low_left]

theorem check_eq (x64 : Bool) (tpu : Int) (n : Nat) :
    polyMulCheck x64 tpu n =
      if x64 = false ∨ (n % 128 = 0 ∧ tpu ≥ 5) then .ok () else .error "TypeError" := by
  unfold polyMulCheck matmulCheck rightWidth
  by_cases h : n % 128 = 0 ∧ tpu ≥ 5
  · rw [if_pos h, if_pos (by decide), if_pos (Or.inr h)]
  · rw [if_neg h]
    cases x64
    · rw [if_pos (by decide), if_pos (Or.inl rfl)]
    · rw [if_neg (by decide), if_neg (by simp only [Bool.true_eq_false, false_or]; exact h)]

/-! ## The flag -/

theorem flagAfter_aux (l : List Module) (b : Bool) :
    l.foldl (fun flag m => if m.setsX64 then true else flag) b = true ↔ b = true ∨ ∃ m ∈ l, m ≠ .other := by
  induction l generalizing b with
  | nil => simp
  | cons m l ih =>
    rw [List.foldl_cons, ih]
    cases m <;> simp [Module.setsX64]

/-- C109: one import of one of the five modules, at any time, leaves 64-bit types enabled for good, and
nothing else enables them. -/
theorem C109_flag (imports : List Module) :
    flagAfter imports = true ↔ ∃ m ∈ imports, m ≠ .other := by
  unfold flagAfter
  rw [flagAfter_aux]
  simp

example : flagAfter [.other, .ckksNtt, .other] = true ∧ flagAfter [.other, .other] = false := by decide

/-! ## What the functions do -/

/-- C109 (negation): once a module of `jaxite_ckks` or `jaxite_ec` that enables 64-bit types has been
imported, on any device other than a TPU of version 5 or later with a degree divisible by 128, every
product of polynomials raises an exception; hence so do RLWE encryption and decryption, every row of an
RGSW encryption, the generation of a bootstrapping key, the external product and the step of the blind
rotation, for all inputs, keys and parameters. -/
theorem C109_negation (imports : List Module) (himp : ∃ m ∈ imports, m ≠ .other) (be : Backend) {n : Nat}
    (hdev : ¬ (n % 128 = 0 ∧ be.tpu ≥ 5)) :
    (∀ a b : Fin n → W, X64.polyMul (flagAfter imports) be.tpu a b = .error "TypeError") ∧
    (∀ (m : Nat) (v w : Fin m → Fin n → W),
      X64.polyDotProduct (flagAfter imports) be.tpu v w = .error "TypeError") ∧
    (∀ (k : Nat) (pt : Fin n → W) (key ai : Fin k → Fin n → W) (e : Fin n → W) (l : Nat),
      X64.rlweEncrypt (flagAfter imports) be pt key ai e l = .error "TypeError") ∧
    (∀ (k : Nat) (ct : Fin (k + 1) → Fin n → W) (sk : RlweSecretKey k n) (p : Encoding.EncodingParameters),
      X64.rlweDecrypt (flagAfter imports) be ct sk p = .error "TypeError") ∧
    (∀ (k : Nat) (ai : Fin k → Fin n → W) (e : W) (level : Nat) (block : Fin (k + 1)) (pt : W)
      (sk : Fin k → Fin n → W) (lb l : Nat),
      X64.encryptRow (flagAfter imports) be ai e level block pt sk lb l = .error "TypeError") ∧
    (∀ (d k : Nat) (lweSk : Lwe.LweSecretKey d) (rlweSk : RlweSecretKey k n) (dp : DecompositionParameters)
      (ai : Nat → Fin (k + 1) → Fin dp.levelCount → Fin k → Fin n → W)
      (e : Nat → Fin (k + 1) → Fin dp.levelCount → W) (bmmp bat : Bool),
      X64.genBootstrappingKey (flagAfter imports) be lweSk rlweSk dp ai e bmmp bat =
        .error (if d % 2 ≠ 0 then "ValueError" else "TypeError")) ∧
    (∀ (k : Nat) (dp : DecompositionParameters)
      (C : Fin ((k + 1) * dp.levelCount) → Fin (k + 1) → Fin n → W) (ct : Fin (k + 1) → Fin n → W),
      X64.jitExternalProduct (flagAfter imports) be dp C ct = .error "TypeError") ∧
    (∀ (k : Nat) (dp : DecompositionParameters)
      (C : Fin ((k + 1) * dp.levelCount) → Fin (k + 1) → Fin n → W) (z w : Fin (k + 1) → Fin n → W),
      X64.jitCmux (flagAfter imports) be dp C z w = .error "TypeError") := by
  rw [(C109_flag imports).2 himp]
  have hc : polyMulCheck true be.tpu n = .error "TypeError" := by
    rw [check_eq, if_neg (by simp only [Bool.true_eq_false, false_or]; exact hdev)]
  have hdot : ∀ (m : Nat) (v w : Fin m → Fin n → W),
      X64.polyDotProduct true be.tpu v w = .error "TypeError" := fun m v w => by
    unfold X64.polyDotProduct; rw [hc]; rfl
  have henc : ∀ (k : Nat) (pt : Fin n → W) (key ai : Fin k → Fin n → W) (e : Fin n → W) (l : Nat),
      X64.rlweEncrypt true be pt key ai e l = .error "TypeError" := fun k pt key ai e l => by
    unfold X64.rlweEncrypt; rw [hdot]; rfl
  have hext : ∀ (k : Nat) (dp : DecompositionParameters)
      (C : Fin ((k + 1) * dp.levelCount) → Fin (k + 1) → Fin n → W) (ct : Fin (k + 1) → Fin n → W),
      X64.jitExternalProduct true be dp C ct = .error "TypeError" := fun k dp C ct => by
    unfold X64.jitExternalProduct X64.negacyclicVectorMatrixPolymul X64.fallbackVectorMatrixPolymul
    rw [if_neg (fun h => hdev ⟨h.1, h.2.1⟩), hc]
    rfl
  refine ⟨fun a b => ?_, hdot, henc, fun k ct sk p => ?_, fun k ai e level block pt sk lb l => ?_,
    fun d k lweSk rlweSk dp ai e bmmp bat => ?_, hext, fun k dp C z w => ?_⟩
  · unfold X64.polyMul; rw [hc]; rfl
  · unfold X64.rlweDecrypt; rw [hdot]; rfl
  · unfold X64.encryptRow; rw [henc]; rfl
  · unfold X64.genBootstrappingKey
    by_cases h : d % 2 ≠ 0
    · rw [if_pos h, if_pos h]; rfl
    · rw [if_neg h, if_neg h, hc]; rfl
  · unfold X64.jitCmux; rw [hext]; rfl

/-- The hypotheses hold on a CPU (where `get_tpu_version` is `-1`) with the degree 1024. -/
example (fdot : FloatDot) (a b : Fin 1024 → W) :
    X64.polyMul (flagAfter [.other, .ecFiniteField]) (-1) a b = .error "TypeError" :=
  (C109_negation [.other, .ecFiniteField] ⟨.ecFiniteField, by decide, by decide⟩ ⟨-1, fdot⟩ (n := 1024)
    (by simp)).1 a b

/-- C109 (part that holds): as long as no such module has been imported, or on a TPU of version 5 or
later with a degree divisible by 128, the functions return, and the words they return are those of the
32-bit models. -/
theorem C109_same_partial (x64 : Bool) (be : Backend) {n : Nat}
    (h : x64 = false ∨ (n % 128 = 0 ∧ be.tpu ≥ 5)) :
    (∀ a b : Fin n → W, ∃ out, X64.polyMul x64 be.tpu a b = .ok out ∧
      ∀ c, (out c).setWidth 32 = polyMul be.tpu a b c) ∧
    (∀ (m : Nat) (v w : Fin m → Fin n → W),
      X64.polyDotProduct x64 be.tpu v w = .ok (polyDotProduct be.tpu v w)) ∧
    (∀ (k : Nat) (pt : Fin n → W) (key ai : Fin k → Fin n → W) (e : Fin n → W) (l : Nat),
      X64.rlweEncrypt x64 be pt key ai e l = .ok (Rlwe.jitEncrypt be pt key ai e l)) ∧
    (∀ (k : Nat) (ct : Fin (k + 1) → Fin n → W) (sk : RlweSecretKey k n) (p : Encoding.EncodingParameters),
      X64.rlweDecrypt x64 be ct sk p = .ok (Rlwe.decrypt be ct sk p)) ∧
    (∀ (k : Nat) (ai : Fin k → Fin n → W) (e : W) (level : Nat) (block : Fin (k + 1)) (pt : W)
      (sk : Fin k → Fin n → W) (lb l : Nat),
      X64.encryptRow x64 be ai e level block pt sk lb l =
        .ok (encryptAndModifyOneRow be ai e level block pt sk lb l)) ∧
    (∀ (d k : Nat) (lweSk : Lwe.LweSecretKey d) (rlweSk : RlweSecretKey k n) (dp : DecompositionParameters)
      (ai : Nat → Fin (k + 1) → Fin dp.levelCount → Fin k → Fin n → W)
      (e : Nat → Fin (k + 1) → Fin dp.levelCount → W) (bmmp bat : Bool),
      X64.genBootstrappingKey x64 be lweSk rlweSk dp ai e bmmp bat =
        Bootstrap.genBootstrappingKey be lweSk rlweSk dp ai e bmmp bat) ∧
    (∀ (k : Nat) (dp : DecompositionParameters)
      (C : Fin ((k + 1) * dp.levelCount) → Fin (k + 1) → Fin n → W) (ct : Fin (k + 1) → Fin n → W),
      X64.jitExternalProduct x64 be dp C ct = Bootstrap.jitExternalProduct be dp (.words C) ct false) ∧
    (∀ (k : Nat) (dp : DecompositionParameters)
      (C : Fin ((k + 1) * dp.levelCount) → Fin (k + 1) → Fin n → W) (z w : Fin (k + 1) → Fin n → W),
      X64.jitCmux x64 be dp C z w = Bootstrap.jitCmux be dp (.words C) z w false) := by
  have hc : polyMulCheck x64 be.tpu n = .ok () := by rw [check_eq, if_pos h]
  have hsum : ∀ (m : Nat) (v w : Fin m → Fin n → W) (c : Fin n),
      (∑ i, polyMulValue x64 be.tpu (v i) (w i) c).setWidth 32 = polyDotProduct be.tpu v w c := by
    intro m v w c
    rw [low_sum (wide_ge x64)]
    exact Finset.sum_congr rfl (fun i _ => low_polyMul x64 be.tpu (v i) (w i) c)
  have hdot : ∀ (m : Nat) (v w : Fin m → Fin n → W),
      X64.polyDotProduct x64 be.tpu v w = .ok (polyDotProduct be.tpu v w) := fun m v w => by
    unfold X64.polyDotProduct; rw [hc]
    exact congrArg Except.ok (funext (hsum m v w))
  have henc : ∀ (k : Nat) (pt : Fin n → W) (key ai : Fin k → Fin n → W) (e : Fin n → W) (l : Nat),
      X64.rlweEncrypt x64 be pt key ai e l = .ok (Rlwe.jitEncrypt be pt key ai e l) :=
    fun k pt key ai e l => by unfold X64.rlweEncrypt; rw [hdot]; rfl
  have hext : ∀ (k : Nat) (dp : DecompositionParameters)
      (C : Fin ((k + 1) * dp.levelCount) → Fin (k + 1) → Fin n → W) (ct : Fin (k + 1) → Fin n → W),
      X64.jitExternalProduct x64 be dp C ct = Bootstrap.jitExternalProduct be dp (.words C) ct false :=
    fun k dp C ct => by
      unfold X64.jitExternalProduct X64.negacyclicVectorMatrixPolymul Bootstrap.jitExternalProduct
      split
      · rfl
      · rename_i hn
        unfold X64.fallbackVectorMatrixPolymul
        rw [hc]
        simp only [PolymulKernel.negacyclicVectorMatrixPolymul, if_neg hn]
        refine congrArg Except.ok (funext fun j => funext fun c => ?_)
        exact hsum _ _ _ c
  refine ⟨fun a b => ⟨polyMulValue x64 be.tpu a b, ?_, low_polyMul x64 be.tpu a b⟩, hdot, henc,
    fun k ct sk p => ?_, fun k ai e level block pt sk lb l => ?_,
    fun d k lweSk rlweSk dp ai e bmmp bat => ?_, hext, fun k dp C z w => ?_⟩
  · unfold X64.polyMul; rw [hc]; rfl
  · unfold X64.rlweDecrypt; rw [hdot]; rfl
  · unfold X64.encryptRow; rw [henc]; rfl
  · unfold X64.genBootstrappingKey
    by_cases hd : d % 2 ≠ 0
    · rw [if_pos hd]
      unfold Bootstrap.genBootstrappingKey
      rw [if_pos hd]; rfl
    · rw [if_neg hd, hc]; rfl
  · unfold X64.jitCmux; rw [hext]; rfl

/-- C109 (part that holds), against the mathematical product: whenever `poly_mul` returns, in either mode,
the low words of its result are the product modulo `X^n + 1`. -/
theorem C109_product_partial (x64 : Bool) (tpu : Int) {n : Nat} (hn : 0 < n) (a b : Fin n → W)
    (out : Fin n → BitVec (wide x64)) (h : X64.polyMul x64 tpu a b = .ok out) :
    toPoly (fun c => (out c).setWidth 32) = (toPoly a * toPoly b) %ₘ (X ^ n + 1) := by
  rw [← C14_poly_mul tpu hn a b]
  congr 1
  funext c
  unfold X64.polyMul at h
  cases hc : polyMulCheck x64 tpu n with
  | error e => rw [hc] at h; cases h
  | ok u =>
    rw [hc] at h
    have : polyMulValue x64 tpu a b = out := by injection h
    rw [← this]
    exact low_polyMul x64 tpu a b c

/-- Both hypotheses can hold in either mode: without the flag anywhere, with it on a TPU. -/
example (a b : Fin 512 → W) : (∃ out, X64.polyMul false (-1) a b = .ok out) ∧
    ∃ out, X64.polyMul true 5 a b = .ok out := by
  refine ⟨⟨polyMulValue false (-1) a b, ?_⟩, polyMulValue true 5 a b, ?_⟩ <;>
    (unfold X64.polyMul; rw [check_eq]; simp)

end Verif.Props
