import Verif.Props.Session
import Verif.Props.Rgsw
import Verif.Props.BlindRotate
import Verif.Model.RlweRandom

/-!
# Property C102: encryption, products, rotations and key switches of the low-level API with random sources
-/

namespace Verif.Props
open Verif.Rlwe Verif.Nega Verif.Arith Verif.Encoding Verif.Bootstrap Verif.Rgsw
open Verif.KeySwitch Verif.Session Verif.Helpers Verif.RlweRandom

/-- Value number `t` that a generator function gives from a state on. -/
def nthDraw {σ : Type} (gen : σ → Int × σ) (t : Nat) (s : σ) : Int := (gen (stateAfter gen t s)).1

theorem sample_exact {σ : Type} (gen : σ → Int × σ) (shape : List Nat) (s : σ) :
    ∃ arr, sample gen shape s = .ok (arr, stateAfter gen (shape.foldl (fun a b => a * b) 1) s) ∧
      ∀ idx : List Nat, (hl : idx.length = shape.length) →
        (∀ i, (hi : i < idx.length) → idx[i] < shape[i]'(by omega)) →
        word arr idx = BitVec.ofInt 32 (nthDraw gen (flatIndex shape idx) s) := by
  obtain ⟨arr, s', h1, h2, -, h4, h5⟩ := (C27_shape_generator gen (shape.map Int.ofNat) (.unsigned 32) s).2 (by
    intro d hd
    obtain ⟨x, -, rfl⟩ := List.mem_map.1 hd
    exact Int.natCast_nonneg x)
  have hid : (shape.map Int.ofNat).map Int.toNat = shape := by
    rw [List.map_map]; exact List.map_id'' (fun _ => rfl) _
  rw [hid] at h2 h4
  refine ⟨arr, by rw [← h4]; exact h1, fun idx hl hi => ?_⟩
  have h := h5 idx (by rw [h2]; exact hl) (by simpa only [h2] using hi)
  unfold word nthDraw
  rw [h2] at h ⊢
  rw [List.getD_eq_getElem?_getD, h, Option.getD_some, ofInt_normalize]

/-- C102: `rlwe.encrypt` draws `k n` uniform values and then `n` normal values. The mask is the uniform values, in
order, and what remains in coefficient `c` after removing the mask is the plaintext plus normal value number `c`. -/
theorem C102_rlwe_draws {σ : Type} (be : Backend) {k n : Nat} (message : Fin n → W) (data : Fin k → Fin n → W)
    (log : Nat) (hlog : log ≤ 32) (prg : RandomSource σ) (s : σ) :
    ∃ ct : Fin (k + 1) → Fin n → W, ∃ s' : σ,
      rlweEncrypt be message ⟨log, data⟩ prg s = .ok (⟨log, n, ct⟩, s') ∧
      s' = stateAfter prg.roundedNormal n (stateAfter prg.uniform (k * n) s) ∧
      (∀ (i : Fin k) c, ct i.castSucc c = BitVec.ofInt 32 (nthDraw prg.uniform (i.val * n + c.val) s)) ∧
      ∀ c, (decryptWithNoise be ct ⟨log, data⟩ c).toNat = ((message c).toNat +
        (BitVec.ofInt 32 (nthDraw prg.roundedNormal c.val (stateAfter prg.uniform (k * n) s))).toNat) % 2 ^ log := by
  obtain ⟨a1, e1, w1⟩ := sample_exact prg.uniform [k, n] s
  obtain ⟨a2, e2, w2⟩ := sample_exact prg.roundedNormal [n] (stateAfter prg.uniform (k * n) s)
  rw [show ([k, n].foldl (fun a b => a * b) 1) = k * n by simp] at e1
  rw [show ([n].foldl (fun a b => a * b) 1) = n by simp] at e2
  refine ⟨Rlwe.jitEncrypt be message data (fun i c => word a1 [i.val, c.val]) (fun c => word a2 [c.val]) log, _, ?_,
    rfl, fun i c => ?_, fun c => ?_⟩
  · unfold rlweEncrypt
    rw [draw_bind _ _ _ _ _ e1, draw_bind _ _ _ _ _ e2]
    rfl
  · unfold Rlwe.jitEncrypt
    simp only [Fin.snoc_castSucc]
    rw [w1 [i.val, c.val] rfl (by
      intro j hj
      match j, hj with
      | 0, _ => exact i.isLt
      | 1, _ => exact c.isLt)]
    simp [flatIndex]
  · rw [C17_phase _ _ _ _ _ _ hlog]
    rw [w2 [c.val] rfl (by
      intro j hj
      match j, hj with
      | 0, _ => exact c.isLt)]
    simp [flatIndex]

/-- What `rlwe.decrypt` returns for data whose content is the encoding of a value in the message range plus a
small noise. -/
theorem decode_decrypt (be : Backend) {k n : Nat} (p : EncodingParameters) (hp : ValidParams p)
    (ct : Fin (k + 1) → Fin n → W) (data : Fin k → Fin n → W) (c : Fin n) (v noise : Int) (x : W)
    (hv0 : 0 ≤ v) (hv1 : v < 2 ^ p.messageBitLength) (hx : encode v p = .ok x)
    (h : decryptWithNoise be ct ⟨32, data⟩ c = x + BitVec.ofInt 32 noise)
    (h1 : -2 ^ (p.errorBitLength - 1) ≤ noise) (h2 : noise < 2 ^ (p.errorBitLength - 1)) :
    ((decode (Rlwe.decrypt be ct ⟨32, data⟩ p c) p).toNat : Int) = v := by
  obtain ⟨y, hy, -, hd⟩ := C08_decrypt (n := 0) p hp v noise (fun j => j.elim0) (fun j => j.elim0) hv0 hv1 h1 h2
  obtain rfl : y = x := by rw [hx] at hy; exact (Except.ok.inj hy).symm
  rw [← hd]
  unfold Rlwe.decrypt Lwe.decrypt
  have e : decryptWithNoise be ct ⟨32, data⟩ c =
      Lwe.decryptWithoutDenoising (Lwe.jitEncrypt y (fun j : Fin 0 => j.elim0) (fun j => j.elim0)
        (BitVec.ofInt 32 noise) 32) ⟨32, fun j => j.elim0⟩ := by
    rw [h]
    apply BitVec.eq_of_toNat_eq
    rw [C08_phase _ _ _ _ _ le_rfl, BitVec.toNat_add]
  rw [e]

theorem encode_range (p : EncodingParameters) (hp : ValidParams p) (v : Int) (hv0 : 0 ≤ v)
    (hv1 : v < 2 ^ p.messageBitLength) (h : 1 ≤ p.errorBitLength) : ∃ x, encode v p = .ok x := by
  obtain ⟨x, hx, -⟩ := C05_roundtrip p hp v 0 hv0 hv1 (by
    have : (0 : Int) < 2 ^ (p.errorBitLength - 1) := by positivity
    omega) (by positivity)
  exact ⟨x, hx⟩

/-- C102: `rlwe.decrypt` inverts `rlwe.encrypt` for every random source, every state it is in, every key and every
message, if the `n` normal values drawn lie in the noise range. -/
theorem C102_rlwe_roundtrip {σ : Type} (be : Backend) {k n : Nat} (p : EncodingParameters) (hp : ValidParams p)
    (message : Fin n → Int) (hm0 : ∀ c, 0 ≤ message c) (hm1 : ∀ c, message c < 2 ^ p.messageBitLength)
    (data : Fin k → Fin n → W) (prg : RandomSource σ) (s : σ)
    (hnoise : ∀ t < n, -2 ^ (p.errorBitLength - 1) ≤
        nthDraw prg.roundedNormal t (stateAfter prg.uniform (k * n) s) ∧
      nthDraw prg.roundedNormal t (stateAfter prg.uniform (k * n) s) < 2 ^ (p.errorBitLength - 1)) :
    ∃ (pt : Fin n → W) (ct : Fin (k + 1) → Fin n → W) (s' : σ), (∀ c, encode (message c) p = .ok (pt c)) ∧
      rlweEncrypt be pt ⟨32, data⟩ prg s = .ok (⟨32, n, ct⟩, s') ∧
      ∀ c, ((decode (Rlwe.decrypt be ct ⟨32, data⟩ p c) p).toNat : Int) = message c := by
  have hx := fun c => encode_range p hp (message c) (hm0 c) (hm1 c) hp.noisy
  choose pt hpt using hx
  obtain ⟨ct, s', e, -, -, hd⟩ := C102_rlwe_draws be pt data 32 le_rfl prg s
  refine ⟨pt, ct, s', hpt, e, fun c => ?_⟩
  refine decode_decrypt be p hp ct data c _ _ _ (hm0 c) (hm1 c) (hpt c) ?_ (hnoise c.val c.isLt).1 (hnoise c.val c.isLt).2
  apply BitVec.eq_of_toNat_eq
  rw [hd c, BitVec.toNat_add]

/-- C102: with `NormalOnlyRng` and `ConstantUniformRng` the mask is the same public number everywhere; with a mask of
zeros the body of a ciphertext is the plaintext plus the noise, whatever the key is. -/
theorem C102_test_sources {σ : Type} (be : Backend) {k n : Nat} (hn : 0 < n) (message : Fin n → W)
    (data : Fin k → Fin n → W) (randint : Int → Int → σ → Int × σ) (normal : Int → σ → Int × σ) (std : Int) (v : Nat)
    (hv : v < 2 ^ 32) (s : σ) :
    (∃ ct s', rlweEncrypt be message ⟨32, data⟩ (constantUniformSource randint normal v std) s =
      .ok (⟨32, n, ct⟩, s') ∧ ∀ (i : Fin k) c, (ct i.castSucc c).toNat = v) ∧
    ∃ ct s', rlweEncrypt be message ⟨32, data⟩ (normalOnlySource randint normal std) s = .ok (⟨32, n, ct⟩, s') ∧
      (∀ (i : Fin k) c, ct i.castSucc c = 0) ∧
      ∀ c, ct (Fin.last k) c = message c + BitVec.ofInt 32 (nthDraw (normal std) c.val s) := by
  have hconst : ∀ (w : Int) (t : Nat), stateAfter (fun s : σ => (w, s)) t s = s := by
    intro w t
    induction t with
    | zero => rfl
    | succ t ih => exact ih
  constructor
  · obtain ⟨ct, s', e, -, hm, -⟩ := C102_rlwe_draws be message data 32 le_rfl
      (constantUniformSource randint normal v std) s
    refine ⟨ct, s', e, fun i c => ?_⟩
    rw [hm i c]
    show (BitVec.ofInt 32 (v : Int)).toNat = v
    rw [BitVec.ofInt_natCast, BitVec.toNat_ofNat]
    exact Nat.mod_eq_of_lt hv
  · obtain ⟨ct, s', e, -, hm, hd⟩ := C102_rlwe_draws be message data 32 le_rfl (normalOnlySource randint normal std) s
    have hz : ∀ (i : Fin k) c, ct i.castSucc c = 0 := fun i c => hm i c
    refine ⟨ct, s', e, hz, fun c => ?_⟩
    have h0 : decryptWithNoise be ct ⟨32, data⟩ = ct (Fin.last k) := by
      apply ev_injective hn
      rw [ev_decryptWithNoise]
      unfold rlwePhase
      have : ∀ i : Fin k, ev (ct i.castSucc) = 0 := fun i => by
        rw [show ct i.castSucc = fun _ => 0 from funext (hz i), ev_eq]
        refine Finset.sum_eq_zero fun c _ => ?_
        rw [cst_zero, zero_mul]
      simp [this]
    rw [← h0]
    apply BitVec.eq_of_toNat_eq
    rw [hd c, BitVec.toNat_add, show stateAfter (normalOnlySource randint normal std).uniform (k * n) s = s from
      hconst 0 _]
    rfl

/-- C102: `rgsw.encrypt` draws `(k+1) L k n` uniform values and then `(k+1) L` normal values, one for each row; the
result has the modulus of the key and the degree attribute of the plaintext object. Row `(p, l)` encrypts
`m 2^(32 - (l+1) b)` times `-s_p` (or 1 for the last block) under its own mask, which is the next `k n` uniform
values (shifted by the message in one coefficient), with normal value number `p L + l` in every coefficient. -/
theorem C102_rgsw_draws {σ : Type} (be : Backend) {k n : Nat} (hn : 0 < n) (m : W) (deg : Nat) (data : Fin k → Fin n → W)
    (dp : DecompositionParameters) (prg : RandomSource σ) (s : σ) :
    ∃ (ct : Fin ((k + 1) * dp.levelCount) → Fin (k + 1) → Fin n → W) (s' : σ),
      rgswEncrypt be m deg ⟨32, data⟩ dp prg s = .ok (⟨ct, 32, deg⟩, s') ∧
      s' = stateAfter prg.roundedNormal ((k + 1) * dp.levelCount)
        (stateAfter prg.uniform ((k + 1) * dp.levelCount * k * n) s) ∧
      ∀ (p : Fin (k + 1)) (l : Fin dp.levelCount),
        rlwePhase (ct (finProdFinEquiv (p, l))) data =
          ev (fun _ => BitVec.ofInt 32 (nthDraw prg.roundedNormal (p.val * dp.levelCount + l.val)
            (stateAfter prg.uniform ((k + 1) * dp.levelCount * k * n) s))) +
          cst n (m * 2 ^ (32 - (l.val + 1) * dp.logBase)) * (if h : p.val < k then -ev (data ⟨p.val, h⟩) else 1) ∧
        ∀ (i : Fin k) (c : Fin n), ct (finProdFinEquiv (p, l)) i.castSucc c =
          BitVec.ofInt 32 (nthDraw prg.uniform (((p.val * dp.levelCount + l.val) * k + i.val) * n + c.val) s) +
            (if i.castSucc = p ∧ c.val = 0 then m * 2 ^ (32 - (l.val + 1) * dp.logBase) else 0) := by
  obtain ⟨a1, e1, w1⟩ := sample_exact prg.uniform [k + 1, dp.levelCount, k, n] s
  rw [show ([k + 1, dp.levelCount, k, n].foldl (fun a b => a * b) 1) = (k + 1) * dp.levelCount * k * n by simp] at e1
  set s1 := stateAfter prg.uniform ((k + 1) * dp.levelCount * k * n) s with hs1
  obtain ⟨a2, e2, w2⟩ := sample_exact prg.roundedNormal [k + 1, dp.levelCount] s1
  rw [show ([k + 1, dp.levelCount].foldl (fun a b => a * b) 1) = (k + 1) * dp.levelCount by simp] at e2
  refine ⟨Rgsw.jitEncrypt be m data dp (fun p l i c => word a1 [p.val, l.val, i.val, c.val])
    (fun p l => word a2 [p.val, l.val]) 32, _, ?_, rfl, fun p l => ⟨?_, fun i c => ?_⟩⟩
  · unfold rgswEncrypt
    rw [draw_bind _ _ _ _ _ e1, draw_bind _ _ _ _ _ e2]
    rfl
  · rw [C20_rows be hn]
    rw [w2 [p.val, l.val] rfl (by
      intro j hj
      match j, hj with
      | 0, _ => exact p.isLt
      | 1, _ => exact l.isLt)]
    simp [flatIndex]
  · have hd : (finProdFinEquiv (p, l)).divNat = p := congrArg Prod.fst (finProdFinEquiv.symm_apply_apply (p, l))
    have hm : (finProdFinEquiv (p, l)).modNat = l := congrArg Prod.snd (finProdFinEquiv.symm_apply_apply (p, l))
    have hw := w1 [p.val, l.val, i.val, c.val] rfl (by
      intro j hj
      match j, hj with
      | 0, _ => exact p.isLt
      | 1, _ => exact l.isLt
      | 2, _ => exact i.isLt
      | 3, _ => exact c.isLt)
    have hf : flatIndex [k + 1, dp.levelCount, k, n] [p.val, l.val, i.val, c.val] =
        ((p.val * dp.levelCount + l.val) * k + i.val) * n + c.val := by
      simp [flatIndex]; ring
    rw [hf] at hw
    unfold Rgsw.jitEncrypt encryptAndModifyOneRow Rlwe.jitEncrypt
    simp only [hd, hm, Fin.snoc_castSucc]
    rw [hw, Decomposition.shiftLeft_eq_mul, show dp.logBase * (1 + l.val) = (l.val + 1) * dp.logBase by ring]
    split <;> simp

/-- C102: `rgsw.decrypt` inverts `rgsw.encrypt` (modulo `2^b`) for every source and state, if the normal values drawn
lie in the range and a key polynomial has constant coefficient one. -/
theorem C102_rgsw_roundtrip {σ : Type} (be : Backend) {k n : Nat} [NeZero n] (dp : DecompositionParameters)
    [NeZero dp.levelCount] (hb : 1 ≤ dp.logBase) (hb2 : dp.logBase ≤ 31) (m : Int) (deg : Nat)
    (data : Fin k → Fin n → W) (hone : ∃ i, data i 0 = 1) (prg : RandomSource σ) (s : σ)
    (hnoise : ∀ t < (k + 1) * dp.levelCount, -2 ^ (31 - dp.logBase) <
        nthDraw prg.roundedNormal t (stateAfter prg.uniform ((k + 1) * dp.levelCount * k * n) s) ∧
      nthDraw prg.roundedNormal t (stateAfter prg.uniform ((k + 1) * dp.levelCount * k * n) s) ≤
        2 ^ (31 - dp.logBase)) :
    ∃ (ct : RgswCiphertext ((k + 1) * dp.levelCount) k n) (s' : σ) (w : W),
      rgswEncrypt be (BitVec.ofInt 32 m) deg ⟨32, data⟩ dp prg s = .ok (ct, s') ∧
      Rgsw.decrypt be dp ct.message ⟨32, data⟩ = .ok w ∧ (w.toNat : Int) = m % 2 ^ dp.logBase := by
  obtain ⟨a1, e1, -⟩ := sample_exact prg.uniform [k + 1, dp.levelCount, k, n] s
  rw [show ([k + 1, dp.levelCount, k, n].foldl (fun a b => a * b) 1) = (k + 1) * dp.levelCount * k * n by simp] at e1
  set s1 := stateAfter prg.uniform ((k + 1) * dp.levelCount * k * n) s with hs1
  obtain ⟨a2, e2, w2⟩ := sample_exact prg.roundedNormal [k + 1, dp.levelCount] s1
  have hw : (fun (p : Fin (k + 1)) (l : Fin dp.levelCount) => word a2 [p.val, l.val]) = fun p l =>
      BitVec.ofInt 32 (nthDraw prg.roundedNormal (p.val * dp.levelCount + l.val) s1) := by
    funext p l
    rw [w2 [p.val, l.val] rfl (by
      intro j hj
      match j, hj with
      | 0, _ => exact p.isLt
      | 1, _ => exact l.isLt)]
    simp [flatIndex]
  have hlt : ∀ (p : Fin (k + 1)) (l : Fin dp.levelCount), p.val * dp.levelCount + l.val < (k + 1) * dp.levelCount := by
    intro p l
    calc p.val * dp.levelCount + l.val < p.val * dp.levelCount + dp.levelCount := by have := l.isLt; omega
      _ = (p.val + 1) * dp.levelCount := by ring
      _ ≤ (k + 1) * dp.levelCount := Nat.mul_le_mul_right _ p.isLt
  obtain ⟨-, h⟩ := C20_decrypt be dp hb hb2 m data (fun p l i c => word a1 [p.val, l.val, i.val, c.val])
    (fun p l => nthDraw prg.roundedNormal (p.val * dp.levelCount + l.val) s1)
    (fun p l => (hnoise _ (hlt p l)).1) (fun p l => (hnoise _ (hlt p l)).2)
  obtain ⟨w, hw1, hw2⟩ := h hone
  refine ⟨⟨_, 32, deg⟩, stateAfter prg.roundedNormal ((k + 1) * dp.levelCount) s1, w, ?_, hw1, hw2⟩
  rw [show ([k + 1, dp.levelCount].foldl (fun a b => a * b) 1) = (k + 1) * dp.levelCount by simp] at e2
  unfold rgswEncrypt
  rw [draw_bind _ _ _ _ _ e1, draw_bind _ _ _ _ _ e2, hw]
  rfl

/-- A program of the low-level API: encrypt a bit as an RGSW ciphertext and a vector as an RLWE ciphertext, with two
sources, and multiply. -/
def productProgram {σ : Type} (be : Backend) {k n : Nat} (dp : DecompositionParameters) (m : Bool) (pt : Fin n → W)
    (sk : RlweSecretKey k n) (prgG prgR : RandomSource σ) : Draw σ (RlweCiphertext k) := do
  let g ← rgswEncrypt be (if m then 1 else 0) n sk dp prgG
  let c ← rlweEncrypt be pt sk prgR
  MonadExcept.ofExcept (externalProduct be dp g c)

/-- C102: `external_product` of a fresh encryption of a bit and a fresh encryption of a vector decrypts to the product,
for every behaviour of the two sources with normal values within `E`, if the worst-case error fits. -/
theorem C102_product {σ : Type} (be : Backend) {k n : Nat} (hn : 0 < n) (dp : DecompositionParameters)
    (hg : GadgetOk dp) (hk : KernelOk be k n dp) (p : EncodingParameters) (hp : ValidParams p) (m : Bool)
    (message : Fin n → Int) (hm0 : ∀ c, 0 ≤ message c) (hm1 : ∀ c, message c < 2 ^ p.messageBitLength)
    (key : Fin k → Fin n → Bool) (prgG prgR : RandomSource σ) (E : Int) (hG : ∀ t, |(prgG.roundedNormal t).1| ≤ E)
    (hR : ∀ t, |(prgR.roundedNormal t).1| ≤ E)
    (hfit : E + extProdBound k n dp 1 E < 2 ^ (p.errorBitLength - 1)) (s : σ) :
    ∃ (pt : Fin n → W) (out : Fin (k + 1) → Fin n → W) (s' : σ), (∀ c, encode (message c) p = .ok (pt c)) ∧
      productProgram be dp m pt ⟨32, fun i c => BitVec.ofInt 32 (bit (key i c))⟩ prgG prgR s =
        .ok (⟨32, n, out⟩, s') ∧
      ∀ c, ((decode (Rlwe.decrypt be out ⟨32, fun i c => BitVec.ofInt 32 (bit (key i c))⟩ p c) p).toNat : Int) =
        if m then message c else 0 := by
  have hx := fun c => encode_range p hp (message c) (hm0 c) (hm1 c) hp.noisy
  choose pt hpt using hx
  have hE : 0 ≤ E := (abs_nonneg _).trans (hG s)
  obtain ⟨a1, s1, e1, -⟩ := sample_ok prgG.uniform [k + 1, dp.levelCount, k, n] s
  obtain ⟨a2, s2, e2, w2⟩ := sample_bounded prgG.roundedNormal E hE hG [k + 1, dp.levelCount] s1
  obtain ⟨a3, s3, e3, -⟩ := sample_ok prgR.uniform [k, n] s2
  obtain ⟨a4, s4, e4, w4⟩ := sample_bounded prgR.roundedNormal E hE hR [n] s3
  choose f2 hf2 hb2 using w2
  choose f4 hf4 hb4 using w4
  set S : Fin k → Fin n → W := fun i c => BitVec.ofInt 32 (bit (key i c)) with hS
  set ct := Rlwe.jitEncrypt be pt S (fun i c => word a3 [i.val, c.val]) (fun c => BitVec.ofInt 32 (f4 [c.val])) 32
    with hct
  have hbit : ∀ b, bit b = 0 ∨ bit b = 1 := fun b => by cases b <;> simp [bit]
  obtain ⟨out, f, ho, hf, hph⟩ := C20_bound be hn dp hg hk false (bit m) (fun i c => bit (key i c)) (fun _ _ => hbit _)
    (fun p l i c => word a1 [p.val, l.val, i.val, c.val]) (fun p l => f2 [p.val, l.val]) E (fun p l => hb2 _) ct
  have hmw : (BitVec.ofInt 32 (bit m) : W) = if m then 1 else 0 := by cases m <;> rfl
  refine ⟨pt, out, s4, hpt, ?_, fun c => ?_⟩
  · have k1 : rgswEncrypt be (if m then 1 else 0) n ⟨32, S⟩ dp prgG s =
        .ok (⟨Rgsw.jitEncrypt be (BitVec.ofInt 32 (bit m)) S dp (fun p l i c => word a1 [p.val, l.val, i.val, c.val])
          (fun p l => BitVec.ofInt 32 (f2 [p.val, l.val])) 32, 32, n⟩, s2) := by
      unfold rgswEncrypt
      rw [draw_bind _ _ _ _ _ e1, draw_bind _ _ _ _ _ e2, hmw]
      simp only [hf2]
      rfl
    have k2 : rlweEncrypt be pt ⟨32, S⟩ prgR s2 = .ok (⟨32, n, ct⟩, s4) := by
      unfold rlweEncrypt
      rw [draw_bind _ _ _ _ _ e3, draw_bind _ _ _ _ _ e4]
      simp only [hf4]
      rfl
    unfold productProgram
    rw [draw_bind _ _ _ _ _ k1, draw_bind _ _ _ _ _ k2]
    refine ofExcept_ok _ _ ?_ _
    unfold externalProduct
    rw [dif_pos rfl]
    have ho' : jitExternalProduct be dp (.words (Rgsw.jitEncrypt be (BitVec.ofInt 32 (bit m)) S dp
        (fun p l i c => word a1 [p.val, l.val, i.val, c.val]) (fun p l => BitVec.ofInt 32 (f2 [p.val, l.val])) 32))
        (fun p c => ct p (c.cast rfl)) false = .ok out := ho
    rw [ho']
    rfl
  · rw [hct, rlwePhase_jitEncrypt, ← ev_decryptWithNoise be] at hph
    have hdec : decryptWithNoise be out ⟨32, S⟩ = fun c =>
        BitVec.ofInt 32 (bit m) * (pt c + BitVec.ofInt 32 (f4 [c.val])) + BitVec.ofInt 32 (f c) := by
      apply ev_injective hn
      rw [hph, ← ev_add, ← ev_smul, ← ev_add]
    have hc := congrFun hdec c
    have hfc := hf c
    have hbc := hb4 [c.val]
    have hXm : extProdBound k n dp (bit m) E ≤ extProdBound k n dp 1 E := by
      unfold extProdBound
      have ht : 0 ≤ truncBound dp.logBase dp.levelCount := by unfold truncBound; split <;> positivity
      have h0 : 0 ≤ truncBound dp.logBase dp.levelCount + k * (n * truncBound dp.logBase dp.levelCount) := by positivity
      have h1 : |bit m| ≤ |(1 : Int)| := by cases m <;> simp [bit]
      have := mul_le_mul_of_nonneg_right h1 h0
      linarith
    have hX0 : 0 ≤ extProdBound k n dp 1 E := ((abs_nonneg _).trans hfc).trans hXm
    cases m with
    | true =>
      refine decode_decrypt be p hp out S c (message c) (f4 [c.val] + f c) _ (hm0 c) (hm1 c) (hpt c) ?_ ?_ ?_
      · rw [hc, BitVec.ofInt_add, ← add_assoc]
        show 1 * _ + _ = _
        rw [one_mul]
      · have := abs_le.1 hfc; have := abs_le.1 hbc; omega
      · have := abs_le.1 hfc; have := abs_le.1 hbc; omega
    | false =>
      obtain ⟨z, hz⟩ := encode_range p hp 0 le_rfl (by positivity) hp.noisy
      have hz0 : z = 0 := by
        have := ((C06_encode p hp 0 (by norm_num) (by norm_num)).2 z hz).1
        apply BitVec.eq_of_toNat_eq
        simpa using this
      refine decode_decrypt be p hp out S c 0 (f c) z le_rfl (by positivity) hz ?_ ?_ ?_
      · rw [hc, hz0]
        show 0 * _ + _ = _
        rw [zero_mul]
      · have := abs_le.1 hfc; omega
      · have := abs_le.1 hfc; omega

/-- A program of the low-level API: make a bootstrapping key, encrypt a polynomial and rotate it by an LWE ciphertext. -/
def rotateProgram {σ : Type} (be : Backend) {d k n : Nat} (dp : DecompositionParameters) (useBmmp useBat : Bool)
    (pt : Fin n → W) (lweSk : Lwe.LweSecretKey d) (sk : RlweSecretKey k n) (prgG prgR : RandomSource σ)
    (index : Fin (d + 1) → W) : Draw σ (RlweCiphertext k) := do
  let bsk ← genBootstrappingKeyRandom be lweSk sk dp prgG useBmmp useBat
  let c ← rlweEncrypt be pt sk prgR
  MonadExcept.ofExcept (blindRotate be dp c index bsk)

/-- C102: `blind_rotate` brings the coefficient with the encrypted number to the constant term: if `index` encrypts
`J < n` modulo `2n` (without noise), the constant term of the result decrypts to coefficient `J` of the message, for
every behaviour of the sources with normal values within `E`, on every branch, if the worst-case error fits. -/
theorem C102_blind_rotate {σ : Type} (be : Backend) {d k n : Nat} [NeZero n] (h2n : 2 * n ∣ 2 ^ 32) (heven : d % 2 = 0)
    (dp : DecompositionParameters) (hg : GadgetOk dp) (hk : KernelOk be k n dp) (p : EncodingParameters)
    (hp : ValidParams p) (message : Fin n → Int) (hm0 : ∀ c, 0 ≤ message c)
    (hm1 : ∀ c, message c < 2 ^ p.messageBitLength) (lweKey : Fin d → Bool) (key : Fin k → Fin n → Bool)
    (prgG prgR : RandomSource σ) (E : Int) (hG : ∀ t, |(prgG.roundedNormal t).1| ≤ E)
    (hR : ∀ t, |(prgR.roundedNormal t).1| ≤ E) (useBmmp useBat : Bool)
    (hfit : E + (if useBmmp then d / 2 else d : Nat) * stepBound useBmmp k n dp E < 2 ^ (p.errorBitLength - 1))
    (index : Fin (d + 1) → W) (J : Fin n)
    (hJ : (((index (Fin.last d)).toNat : Int) - ∑ i : Fin d, ((index i.castSucc).toNat : Int) * bit (lweKey i)) %
      (2 * n) = J.val) (s : σ) :
    ∃ (pt : Fin n → W) (out : Fin (k + 1) → Fin n → W) (s' : σ), (∀ c, encode (message c) p = .ok (pt c)) ∧
      rotateProgram be dp useBmmp useBat pt ⟨32, fun i => BitVec.ofInt 32 (bit (lweKey i))⟩
        ⟨32, fun i c => BitVec.ofInt 32 (bit (key i c))⟩ prgG prgR index s = .ok (⟨32, n, out⟩, s') ∧
      ((decode (Rlwe.decrypt be out ⟨32, fun i c => BitVec.ofInt 32 (bit (key i c))⟩ p 0) p).toNat : Int) =
        message J := by
  have hn : 0 < n := Nat.pos_of_ne_zero (NeZero.ne n)
  have hx := fun c => encode_range p hp (message c) (hm0 c) (hm1 c) hp.noisy
  choose pt hpt using hx
  have hE : 0 ≤ E := (abs_nonneg _).trans (hG s)
  set num := if useBmmp then d + d / 2 else d with hnum
  set padded := (num + genBskNumBatches - 1) / genBskNumBatches * genBskNumBatches with hpadded
  obtain ⟨a1, s1, e1, -⟩ := sample_ok prgG.uniform [padded, k + 1, dp.levelCount, k, n] s
  obtain ⟨a2, s2, e2, w2⟩ := sample_bounded prgG.roundedNormal E hE hG [padded, k + 1, dp.levelCount] s1
  obtain ⟨a3, s3, e3, -⟩ := sample_ok prgR.uniform [k, n] s2
  obtain ⟨a4, s4, e4, w4⟩ := sample_bounded prgR.roundedNormal E hE hR [n] s3
  choose f2 hf2 hb2 using w2
  choose f4 hf4 hb4 using w4
  set S : Fin k → Fin n → W := fun i c => BitVec.ofInt 32 (bit (key i c)) with hS
  set ct := Rlwe.jitEncrypt be pt S (fun i c => word a3 [i.val, c.val]) (fun c => BitVec.ofInt 32 (f4 [c.val])) 32
    with hct
  have hbit : ∀ b, bit b = 0 ∨ bit b = 1 := fun b => by cases b <;> simp [bit]
  obtain ⟨bsk, hbsk⟩ := (C22_odd_dimension be ⟨32, fun i => BitVec.ofInt 32 (bit (lweKey i))⟩ ⟨32, S⟩ dp
    (fun i p l j c => word a1 [i, p.val, l.val, j.val, c.val]) (fun i p l => BitVec.ofInt 32 (f2 [i, p.val, l.val]))
    useBmmp useBat).2 heven
  obtain ⟨out, f, ho, hf, hph⟩ := C22_blind_rotate be hn h2n dp hg hk (fun i => bit (lweKey i)) (fun _ => hbit _) 32
    (fun i c => bit (key i c)) (fun _ _ => hbit _) _ (fun i p l => f2 [i, p.val, l.val]) E (fun i p l => hb2 _)
    useBmmp useBat bsk hbsk ct index
  refine ⟨pt, out, s4, hpt, ?_, ?_⟩
  · have k1 : genBootstrappingKeyRandom be ⟨32, fun i => BitVec.ofInt 32 (bit (lweKey i))⟩ ⟨32, S⟩ dp prgG useBmmp
        useBat s = .ok (bsk, s2) := by
      unfold genBootstrappingKeyRandom
      rw [if_neg (by omega)]
      simp only
      rw [← hnum, ← hpadded, draw_bind _ _ _ _ _ e1, draw_bind _ _ _ _ _ e2]
      refine ofExcept_ok _ _ ?_ _
      simp only [hf2]
      exact hbsk
    have k2 : rlweEncrypt be pt ⟨32, S⟩ prgR s2 = .ok (⟨32, n, ct⟩, s4) := by
      unfold rlweEncrypt
      rw [draw_bind _ _ _ _ _ e3, draw_bind _ _ _ _ _ e4]
      simp only [hf4]
      rfl
    unfold rotateProgram
    rw [draw_bind _ _ _ _ _ k1, draw_bind _ _ _ _ _ k2]
    refine ofExcept_ok _ _ ?_ _
    unfold blindRotate
    rw [dif_pos rfl]
    have ho' : jitBlindRotate be dp (fun p c => ct p (c.cast rfl)) index bsk 32 = .ok out := ho
    simp only
    rw [ho']
    rfl
  · rw [hct, rlwePhase_jitEncrypt, ← ev_add] at hph
    obtain ⟨B, hB⟩ : ∃ B : Fin n → W, ev B = x W n ^ (rotation index (fun i => bit (lweKey i)) % (2 * n)).toNat *
        ev (fun c => pt c + BitVec.ofInt 32 (f4 [c.val])) := ⟨_, ev_coeffs hn _⟩
    have hdec : decryptWithNoise be out ⟨32, S⟩ = fun c => B c + BitVec.ofInt 32 (f c) := by
      apply ev_injective hn
      rw [ev_decryptWithNoise, hph, ev_add B, hB]
    have hrot : rotation index (fun i => bit (lweKey i)) % (2 * n) = (-(J.val : Int)) % (2 * n) := by
      have h1 : rotation index (fun i => bit (lweKey i)) = -(((index (Fin.last d)).toNat : Int) -
          ∑ i : Fin d, ((index i.castSucc).toNat : Int) * bit (lweKey i)) := by
        unfold rotation; ring
      rw [h1, ← hJ]
      exact ((Int.mod_modEq _ _).neg).symm
    rw [hrot] at hB
    have h0 := (TestPolynomial.const_coeff_rot (J.val : Int) _ B hB).1 J rfl
    have hfc := abs_le.1 (hf 0)
    have hbc := abs_le.1 (hb4 [J.val])
    refine decode_decrypt be p hp out S 0 (message J) (f4 [J.val] + f 0) _ (hm0 J) (hm1 J) (hpt J) ?_ ?_ ?_
    · rw [hdec]
      simp only [h0]
      rw [BitVec.ofInt_add, ← add_assoc]
    · omega
    · omega

/-- A program of the low-level API: make a key-switching key and switch a ciphertext. -/
def switchProgram {σ : Type} {n m : Nat} (dp : DecompositionParameters) (inKey : Lwe.LweSecretKey n)
    (outKey : Lwe.LweSecretKey m) (prg : RandomSource σ) (ct : Fin (n + 1) → W) : Draw σ (Fin (m + 1) → W) := do
  let ksk ← genKeySwitchingKey dp prg inKey outKey
  pure (switchKey ksk ct)

/-- C102: `switch_key` with a fresh key: a ciphertext that decrypts to a message under the first key decrypts to it
under the second key, for every behaviour of the source with normal values within `E`, if the noise of the
ciphertext and the worst-case error fit together. -/
theorem C102_switch_key {σ : Type} {n m : Nat} (dp : DecompositionParameters) (hg : GadgetOk dp)
    (p : EncodingParameters) (hp : ValidParams p) (message noise : Int) (hm0 : 0 ≤ message)
    (hm1 : message < 2 ^ p.messageBitLength) (inKey : Fin n → Bool) (outKey : Fin m → W) (prg : RandomSource σ)
    (E : Int) (hE : ∀ t, |(prg.roundedNormal t).1| ≤ E) (ct : Fin (n + 1) → W)
    (hct : lwePhase ct (fun i => BitVec.ofInt 32 (bit (inKey i))) =
      BitVec.ofInt 32 (message * 2 ^ p.errorBitLength + noise))
    (hfit : |noise| + (n * truncBound dp.logBase dp.levelCount + n * (dp.levelCount * (2 ^ dp.logBase * E))) <
      2 ^ (p.errorBitLength - 1)) (s : σ) :
    ∃ (out : Fin (m + 1) → W) (s' : σ),
      switchProgram dp ⟨32, fun i => BitVec.ofInt 32 (bit (inKey i))⟩ ⟨32, outKey⟩ prg ct s = .ok (out, s') ∧
      ((decode (Lwe.decryptWithoutDenoising out ⟨32, outKey⟩) p).toNat : Int) = message := by
  have hE0 : 0 ≤ E := (abs_nonneg _).trans (hE s)
  obtain ⟨a1, s1, e1, -⟩ := sample_ok prg.uniform [n, dp.levelCount, m] s
  obtain ⟨a2, s2, e2, w2⟩ := sample_bounded prg.roundedNormal E hE0 hE [n, dp.levelCount] s1
  choose f2 hf2 hb2 using w2
  have hbit : ∀ b, bit b = 0 ∨ bit b = 1 := fun b => by cases b <;> simp [bit]
  obtain ⟨err, herr, hks⟩ := C19_bound dp hg.base hg.base_le hg.dvd hg.fits (fun i => bit (inKey i)) (fun _ => hbit _)
    outKey (fun i l => f2 [i.val, l.val]) E (fun i l => hb2 _) (fun i l j => word a1 [i.val, l.val, j.val]) 32 ct
  refine ⟨jitSwitchKey (KeySwitch.genKey dp ⟨32, fun i => BitVec.ofInt 32 (bit (inKey i))⟩ ⟨32, outKey⟩
    (fun i l j => word a1 [i.val, l.val, j.val]) (fun i l => BitVec.ofInt 32 (f2 [i.val, l.val]))) ct dp.logBase, s2,
    ?_, ?_⟩
  rotate_left
  · rw [decryptWithoutDenoising_eq _ _ 32 le_rfl, hks, hct, ← BitVec.ofInt_add, add_assoc]
    have h1 := abs_le.1 herr
    have h2 := abs_le.1 (le_refl |noise|)
    rw [(C05_decode_any p hp message (noise + err) (by omega) (by omega)).1]
    exact Int.emod_eq_of_lt hm0 hm1
  · have k1 : genKeySwitchingKey dp prg ⟨32, fun i => BitVec.ofInt 32 (bit (inKey i))⟩ ⟨32, outKey⟩ s =
        .ok (⟨dp.logBase, KeySwitch.genKey dp ⟨32, fun i => BitVec.ofInt 32 (bit (inKey i))⟩ ⟨32, outKey⟩
          (fun i l j => word a1 [i.val, l.val, j.val]) (fun i l => BitVec.ofInt 32 (f2 [i.val, l.val]))⟩, s2) := by
      unfold genKeySwitchingKey genKeySwitchingKeyRandom
      have k0 : (do
          let ai ← sample prg.uniform [n, dp.levelCount, m]
          let er ← sample prg.roundedNormal [n, dp.levelCount]
          pure (KeySwitch.genKey dp ⟨32, fun i => BitVec.ofInt 32 (bit (inKey i))⟩ ⟨32, outKey⟩
            (fun i l j => word ai [i.val, l.val, j.val]) (fun i l => word er [i.val, l.val])) : Draw σ _) s =
          .ok (KeySwitch.genKey dp ⟨32, fun i => BitVec.ofInt 32 (bit (inKey i))⟩ ⟨32, outKey⟩
            (fun i l j => word a1 [i.val, l.val, j.val]) (fun i l => BitVec.ofInt 32 (f2 [i.val, l.val])), s2) := by
        rw [draw_bind _ _ _ _ _ e1, draw_bind _ _ _ _ _ e2]
        simp only [hf2]
        rfl
      rw [draw_bind _ _ _ _ _ k0]
      rfl
    unfold switchProgram
    rw [draw_bind _ _ _ _ _ k1]
    rfl

/-! ## Instances: degree 4, dimension 1, a source of alternating bits with normal values -1 -/

example := C102_rlwe_draws ⟨0, fun _ u v => ∑ i, u i * v i⟩ ![5#32, 0, 7, 1] ![![1, 0, 1, 1]] 32 le_rfl
  (cycleSource [1, 0] (-1)) 3

example := C102_rlwe_roundtrip ⟨0, fun _ u v => ∑ i, u i * v i⟩ boolParams boolParams_valid ![5, 0, 7, 1] (by decide)
  (by decide) ![![1, 0, 1, 1]] (cycleSource [1, 0] (-1)) 3 (fun _ _ => ⟨by show (-2 ^ 27 : Int) ≤ -1; decide, by show (-1 : Int) < 2 ^ 27; decide⟩)

example := C102_test_sources (σ := Nat) ⟨0, fun _ u v => ∑ i, u i * v i⟩ (by decide) ![5#32, 0, 7, 1] ![![1, 0, 1, 1]]
  (fun lo _ s => (lo, s + 1)) (fun _ s => (s, s + 1)) 1 9 (by decide) 3

example := C102_rgsw_draws ⟨0, fun _ u v => ∑ i, u i * v i⟩ (by decide) 1#32 4 ![![1, 0, 1, 1]] ⟨4, 8, 32⟩
  (cycleSource [1, 0] (-1)) 3

example : ∃ ct s' w, rgswEncrypt ⟨0, fun _ u v => ∑ i, u i * v i⟩ (BitVec.ofInt 32 3) 4 ⟨32, ![![1, 0, 1, 1]]⟩
      ⟨4, 8, 32⟩ (cycleSource [1, 0] (-1)) 3 = .ok (ct, s') ∧
    Rgsw.decrypt ⟨0, fun _ u v => ∑ i, u i * v i⟩ (k := 1) (n := 4) ⟨4, 8, 32⟩ ct.message ⟨32, ![![1, 0, 1, 1]]⟩ =
      .ok w ∧ (w.toNat : Int) = 3 % 2 ^ 4 := by
  have : NeZero (DecompositionParameters.mk 4 8 32).levelCount := ⟨by decide⟩
  exact C102_rgsw_roundtrip _ (k := 1) (n := 4) ⟨4, 8, 32⟩ (by decide) (by decide) 3 4 ![![1, 0, 1, 1]] ⟨0, rfl⟩
    (cycleSource [1, 0] (-1)) 3 (fun _ _ => ⟨by show (-2 ^ 27 : Int) < -1; decide, by show (-1 : Int) ≤ 2 ^ 27; decide⟩)

example := C102_product ⟨0, fun _ u v => ∑ i, u i * v i⟩ (by decide) ⟨4, 8, 32⟩
  ⟨by decide, by decide, by decide, by decide, rfl⟩ (fun h => absurd h (by decide)) boolParams boolParams_valid true
  ![5, 0, 7, 1] (by decide) (by decide) ![![true, false, true, true]] (cycleSource [1, 0] (-1))
  (cycleSource [1, 0] (-1)) 1 (fun _ => by show |(-1 : Int)| ≤ 1; decide) (fun _ => by show |(-1 : Int)| ≤ 1; decide) (by decide) 3

example := C102_blind_rotate ⟨0, fun _ u v => ∑ i, u i * v i⟩ (d := 2) (by decide) (by decide) ⟨4, 8, 32⟩
  ⟨by decide, by decide, by decide, by decide, rfl⟩ (fun h => absurd h (by decide)) boolParams boolParams_valid
  ![5, 0, 7, 1] (by decide) (by decide) ![true, true] ![![true, false, true, true]] (cycleSource [1, 0] (-1))
  (cycleSource [1, 0] (-1)) 1 (fun _ => by show |(-1 : Int)| ≤ 1; decide) (fun _ => by show |(-1 : Int)| ≤ 1; decide) true false (by decide) ![3#32, 6#32, 11#32] 2
  (by decide) 3

example := C102_switch_key (n := 2) (m := 3) ⟨4, 8, 32⟩ ⟨by decide, by decide, by decide, by decide, rfl⟩ boolParams
  boolParams_valid 5 7 (by decide) (by decide) ![true, false] ![1#32, 0, 1] (cycleSource [1, 0] (-1)) 1
  (fun _ => by show |(-1 : Int)| ≤ 1; decide) ![100#32, 200#32, BitVec.ofInt 32 (5 * 2 ^ 28 + 107)] (by decide) (by decide) 3

end Verif.Props
