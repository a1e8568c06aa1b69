import Verif.Props.X64Bootstrap

/-!
# C109 for gates and programs: ciphertexts whose words may have 64 bits
-/

namespace Verif.Props
open Verif.Arith Verif.MatrixUtils Verif.Rlwe Verif.Rgsw
open Verif.X64 (Module flagAfter polyMulCheck wide Words)
open Verif.Bootstrap (RgswData BootstrappingKey)
open Verif.JaxiteBool (Circuit ServerKeySet ClientKeySet Parameters)

/-! ## The modulus switch and the rotation only depend on the low words -/

theorem two_pow_dvd {w : Nat} (hw : 32 ≤ w) : 2 ^ 32 ∣ 2 ^ w := Nat.pow_dvd_pow 2 hw

theorem switch_val {w n : Nat} (hw : 32 ≤ w) (ct : Fin (n + 1) → BitVec w) (logN : Nat) (hN : logN ≤ 30)
    (i : Fin (n + 1)) :
    (X64.switchModulus ct 32 (logN + 1) i).toNat =
      ((ct i).toNat / 2 ^ (31 - logN) + ((ct i).toNat % 2 ^ (31 - logN) + 2 ^ (31 - logN) / 2) / 2 ^ (31 - logN)) %
        2 ^ (logN + 1) := by
  have hpow : 2 ^ 32 ≤ 2 ^ w := Nat.pow_le_pow_right (by norm_num) hw
  have hs : (32 - (logN + 1)) = 31 - logN := by omega
  unfold X64.switchModulus X64.integerDiv
  rw [hs]
  have hd : ∀ s ≤ 31, ((BitVec.ofNat 32 (2 ^ s)).setWidth w).toNat = 2 ^ s := by
    intro s h
    have h1 : 2 ^ s < 2 ^ 32 := Nat.pow_lt_pow_right (by norm_num) (by omega)
    rw [BitVec.toNat_setWidth, BitVec.toNat_ofNat, Nat.mod_eq_of_lt h1, Nat.mod_eq_of_lt (by omega)]
  have h2 : (2 : BitVec w).toNat = 2 := by
    show (BitVec.ofNat w 2).toNat = 2
    rw [BitVec.toNat_ofNat, Nat.mod_eq_of_lt (by omega)]
  have hD : 2 ^ (31 - logN) ≤ 2 ^ 31 := Nat.pow_le_pow_right (by norm_num) (by omega)
  have hDpos : 0 < 2 ^ (31 - logN) := by positivity
  simp only [BitVec.toNat_umod, BitVec.toNat_add, BitVec.toNat_udiv, hd (31 - logN) (by omega),
    hd (logN + 1) (by omega), h2]
  have hr := Nat.mod_lt (ct i).toNat hDpos
  rw [Nat.mod_eq_of_lt (a := (ct i).toNat % 2 ^ (31 - logN) + _) (by omega),
    Nat.mod_mod_of_dvd _ (Nat.pow_dvd_pow 2 (by omega : logN + 1 ≤ w))]

theorem switch_low {w n : Nat} (hw : 32 ≤ w) (ct : Fin (n + 1) → BitVec w) (logN : Nat) (hN : logN ≤ 30)
    (i : Fin (n + 1)) :
    (X64.switchModulus ct 32 (logN + 1) i).toNat =
      (Lwe.switchModulus (fun i => (ct i).setWidth 32) 32 (logN + 1) i).toNat := by
  rw [← switch_32, switch_val hw ct logN hN, switch_val le_rfl _ logN hN]
  simp only [BitVec.toNat_setWidth]
  have e32 : 2 ^ 32 = 2 ^ (31 - logN) * 2 ^ (logN + 1) := by rw [← pow_add]; congr 1; omega
  have h1 : (ct i).toNat % 2 ^ 32 / 2 ^ (31 - logN) = (ct i).toNat / 2 ^ (31 - logN) % 2 ^ (logN + 1) := by
    rw [e32, Nat.mod_mul_right_div_self]
  have h2 : (ct i).toNat % 2 ^ 32 % 2 ^ (31 - logN) = (ct i).toNat % 2 ^ (31 - logN) :=
    Nat.mod_mod_of_dvd _ (Nat.pow_dvd_pow 2 (by omega))
  rw [h1, h2, Nat.mod_add_mod]

theorem monomial_congr {n : Nat} (p : Fin n → W) (a b : Int) (l : Nat) (h : a % (2 * n) = b % (2 * n)) :
    monomialMul p a l = monomialMul p b l := by
  unfold monomialMul
  simp only [h]

theorem neg_mod {w m b : Nat} (hm : m ≤ w) (hb : b < 2 ^ m) :
    (2 ^ w - b) % 2 ^ w % 2 ^ m = (2 ^ m - b) % 2 ^ m := by
  rw [Nat.mod_mod_of_dvd _ (Nat.pow_dvd_pow 2 hm)]
  obtain ⟨c, rfl⟩ := Nat.exists_eq_add_of_le hm
  have hc : 0 < 2 ^ c := by positivity
  have e : 2 ^ (m + c) - b = 2 ^ m * (2 ^ c - 1) + (2 ^ m - b) := by
    rw [pow_add]
    have h3 : 2 ^ m * 2 ^ c = 2 ^ m * (2 ^ c - 1) + 2 ^ m := by
      rw [← Nat.mul_succ]; congr 1; omega
    omega
  rw [e, Nat.mul_add_mod]

theorem rotate_low (x64 : Bool) (be : Backend) {w d k logN : Nat} (hw : 32 ≤ w) (hN : logN ≤ 30)
    (dp : DecompositionParameters) (t : Fin (k + 1) → Fin (2 ^ logN) → W) (ci : Fin (d + 1) → BitVec w)
    (ci' : Fin (d + 1) → W) (hci : ∀ i, (ci i).toNat = (ci' i).toNat)
    (hlt : ∀ i, (ci' i).toNat < 2 ^ (logN + 1))
    (bsk : BootstrappingKey ((k + 1) * dp.levelCount) k (2 ^ logN)) (l : Nat) :
    X64.jitBlindRotate x64 be dp t ci bsk l = X64.jitBlindRotate x64 be dp t ci' bsk l := by
  have hpow : 2 ^ 32 ≤ 2 ^ w := Nat.pow_le_pow_right (by norm_num) hw
  have hlog : 2 ^ (logN + 1) ≤ 2 ^ 31 := Nat.pow_le_pow_right (by norm_num) (by omega)
  have hat : ∀ i, (if h : i < d + 1 then ci ⟨i, h⟩ else 0).toNat =
      (if h : i < d + 1 then ci' ⟨i, h⟩ else 0).toNat := by
    intro i; split
    · exact hci _
    · simp
  have hat31 : ∀ i, (if h : i < d + 1 then ci' ⟨i, h⟩ else 0).toNat < 2 ^ 31 := by
    intro i; split
    · exact lt_of_lt_of_le (hlt _) hlog
    · simp
  have hadd : ∀ i j, ((if h : i < d + 1 then ci ⟨i, h⟩ else 0) + (if h : j < d + 1 then ci ⟨j, h⟩ else 0)).toNat =
      ((if h : i < d + 1 then ci' ⟨i, h⟩ else 0) + (if h : j < d + 1 then ci' ⟨j, h⟩ else 0)).toNat := by
    intro i j
    have h1 := hat31 i
    have h2 := hat31 j
    rw [BitVec.toNat_add, BitVec.toNat_add, hat i, hat j, Nat.mod_eq_of_lt (by omega), Nat.mod_eq_of_lt (by omega)]
  have hbody : X64.oneExternalProduct x64 be dp ci bsk l = X64.oneExternalProduct x64 be dp ci' bsk l := by
    funext j acc
    unfold X64.oneExternalProduct
    simp only [hadd, hat]
  have hfirst : ∀ p, monomialMul (t p) ((-ci (Fin.last d)).toNat : Int) l =
      monomialMul (t p) ((-ci' (Fin.last d)).toNat : Int) l := by
    intro p
    apply monomial_congr
    have e : (2 * ((2 ^ logN : Nat) : Int)) = ((2 ^ (logN + 1) : Nat) : Int) := by push_cast; ring
    have hb := hlt (Fin.last d)
    rw [e, ← Int.natCast_emod, ← Int.natCast_emod, BitVec.toNat_neg, BitVec.toNat_neg, hci,
      neg_mod (by omega) hb, neg_mod (by omega) hb]
  unfold X64.jitBlindRotate
  simp only [hbody, hfirst]

/-- C109 (part that holds): the bootstrapping of a ciphertext with wider words, as another bootstrapping
returns with 64-bit types, has the low words of the bootstrapping of its low words. -/
theorem C109_wide_same_partial (x64 : Bool) (be : Backend) {w d k logN : Nat} (hw : 32 ≤ w) (hN : logN ≤ 30)
    (h : x64 = false ∨ (2 ^ logN % 128 = 0 ∧ be.tpu ≥ 5)) (dp : DecompositionParameters) (L b : Nat)
    (ct : Fin (d + 1) → BitVec w) (t : Fin (k + 1) → Fin (2 ^ logN) → W)
    (bsk : BootstrappingKey ((k + 1) * dp.levelCount) k (2 ^ logN))
    (ksk : Fin (k * 2 ^ logN) → Fin L → Fin (d + 1) → W) :
    (X64.jitBootstrap x64 be 32 logN dp b ct t bsk ksk).map (fun out j => (out j).setWidth 32) =
      Bootstrap.jitBootstrap be 32 logN dp b (fun i => (ct i).setWidth 32) t bsk ksk := by
  rw [← (C109_bootstrap_same_partial x64 be (d := d) (k := k) (n := 2 ^ logN) h).2.2]
  unfold X64.jitBootstrap
  have hr := rotate_low x64 be hw hN dp t (X64.switchModulus ct 32 (logN + 1))
    (Lwe.switchModulus (fun i => (ct i).setWidth 32) 32 (logN + 1)) (switch_low hw ct logN hN)
    (fun i => by
      rw [← switch_32, switch_val le_rfl _ logN hN]
      exact Nat.mod_lt _ (by positivity)) bsk 32
  simp only [switch_32, hr]

example (fdot : PolymulKernel.FloatDot) (dp : DecompositionParameters) (ct : Fin 5 → BitVec 64)
    (t : Fin 2 → Fin (2 ^ 10) → W) (bsk : BootstrappingKey (2 * dp.levelCount) 1 (2 ^ 10))
    (ksk : Fin (1 * 2 ^ 10) → Fin 3 → Fin 5 → W) :=
  C109_wide_same_partial true ⟨5, fdot⟩ (by norm_num) (by norm_num) (Or.inr ⟨by norm_num, by norm_num⟩) dp 3 4 ct t bsk ksk

/-! ## Programs -/

/-- The low words. -/
def lowWords {d : Nat} (x : Words d) : Fin (d + 1) → W := fun i => (x.word i).setWidth 32

/-- Same exception, or a ciphertext with these low words. -/
inductive SameLow {d : Nat} : Except String (Words d) → Except String (Fin (d + 1) → W) → Prop
  | error (e : String) : SameLow (.error e) (.error e)
  | ok (x : Words d) (h : 32 ≤ x.width) : SameLow (.ok x) (.ok (lowWords x))

theorem SameLow.bind {d : Nat} {a : Except String (Words d)} {b : Except String (Fin (d + 1) → W)}
    (h : SameLow a b) (f : Words d → Except String (Words d)) (g : (Fin (d + 1) → W) → Except String (Fin (d + 1) → W))
    (hf : ∀ x : Words d, 32 ≤ x.width → SameLow (f x) (g (lowWords x))) : SameLow (a >>= f) (b >>= g) := by
  cases h with
  | error e => exact .error e
  | ok x hx => exact hf x hx

theorem SameLow.bind' {d : Nat} {α : Type} (a : Except String α)
    (f : α → Except String (Words d)) (g : α → Except String (Fin (d + 1) → W))
    (hf : ∀ x, SameLow (f x) (g x)) : SameLow (a >>= f) (a >>= g) := by
  cases a with
  | error e => exact .error e
  | ok x => exact hf x

theorem SameLow.of_eq {d : Nat} {x : Words d} {y : Fin (d + 1) → W} (h : 32 ≤ x.width) (e : lowWords x = y) :
    SameLow (.ok x) (.ok y) := e ▸ .ok x h

theorem low_add {d : Nat} (x y : Words d) (hx : 32 ≤ x.width) (i : Fin (d + 1)) :
    lowWords (x.add y) i = lowWords x i + lowWords y i := by
  have hm : 32 ≤ max x.width y.width := le_trans hx (le_max_left _ _)
  show ((x.word i).setWidth (max x.width y.width) + (y.word i).setWidth (max x.width y.width)).setWidth 32 = _
  rw [BitVec.setWidth_add _ _ hm, BitVec.setWidth_setWidth_of_le _ hm, BitVec.setWidth_setWidth_of_le _ hm]
  rfl

theorem low_sub {d : Nat} (x y : Words d) (hx : 32 ≤ x.width) (i : Fin (d + 1)) :
    lowWords (x.sub y) i = lowWords x i - lowWords y i := by
  have hm : 32 ≤ max x.width y.width := le_trans hx (le_max_left _ _)
  show ((x.word i).setWidth (max x.width y.width) - (y.word i).setWidth (max x.width y.width)).setWidth 32 = _
  rw [low_minus hm, BitVec.setWidth_setWidth_of_le _ hm, BitVec.setWidth_setWidth_of_le _ hm]
  rfl

theorem low_scale {d : Nat} (c : Nat) (x : Words d) (hx : 32 ≤ x.width) (i : Fin (d + 1)) :
    lowWords (x.scale c) i = BitVec.ofNat 32 c * lowWords x i := by
  show (BitVec.ofNat x.width c * x.word i).setWidth 32 = _
  rw [BitVec.setWidth_mul _ _ hx]
  congr 1
  apply BitVec.eq_of_toNat_eq
  rw [BitVec.toNat_setWidth, BitVec.toNat_ofNat, BitVec.toNat_ofNat, Nat.mod_mod_of_dvd _ (two_pow_dvd hx)]

theorem low_of_words {d : Nat} (x : Fin (d + 1) → W) : lowWords ⟨32, x⟩ = x :=
  funext fun i => BitVec.setWidth_eq (x i)

section
variable (x64 : Bool) (be : Backend) {d k logN : Nat} {params : Parameters}

theorem same_poly (h : x64 = false ∨ (2 ^ logN % 128 = 0 ∧ be.tpu ≥ 5)) (l : Lut.LookUpTable) :
    X64.asRlweTestPolynomial x64 be k logN l = JaxiteBool.asRlweTestPolynomial be k logN l := by
  have ht := (C109_bootstrap_same_partial x64 be (d := 0) (k := k) (n := 2 ^ logN) h).1
  unfold X64.asRlweTestPolynomial JaxiteBool.asRlweTestPolynomial
  simp only [ht]
  rfl

theorem same_call (h : x64 = false ∨ (2 ^ logN % 128 = 0 ∧ be.tpu ≥ 5)) (hN : logN ≤ 30)
    (sks : ServerKeySet d k logN params) (ct : Words d) (hw : 32 ≤ ct.width)
    (t : Fin (k + 1) → Fin (2 ^ logN) → W) :
    SameLow (X64.callBootstrap x64 be sks ct t) (JaxiteBool.callBootstrap be sks (lowWords ct) t) := by
  have hb := C109_wide_same_partial x64 be hw hN h params.bsDecomp _ params.ksDecomp.logBase ct.word t sks.bsk sks.ksk
  unfold X64.callBootstrap JaxiteBool.callBootstrap lowWords
  rw [← hb]
  cases X64.jitBootstrap x64 be 32 logN params.bsDecomp params.ksDecomp.logBase ct.word t sks.bsk sks.ksk with
  | error e => exact .error e
  | ok out => exact .ok ⟨wide x64, out⟩ (wide_ge x64)

theorem same_gate2 (h : x64 = false ∨ (2 ^ logN % 128 = 0 ∧ be.tpu ≥ 5)) (hN : logN ≤ 30)
    (sks : ServerKeySet d k logN params) (name : String) (x y : Words d) (hx : 32 ≤ x.width) :
    SameLow (X64.gate2 x64 be sks name x y) (JaxiteBool.gate2 be sks name (lowWords x) (lowWords y)) := by
  unfold X64.gate2 JaxiteBool.gate2
  simp only [same_poly x64 be h]
  refine SameLow.bind' _ _ _ fun l => SameLow.bind' _ _ _ fun p => ?_
  have e : (fun i => 2 * lowWords x i + lowWords y i) = lowWords ((x.scale 2).add y) :=
    funext fun i => by rw [low_add _ _ (show 32 ≤ (x.scale 2).width from hx), low_scale _ _ hx]; rfl
  rw [e]
  exact same_call x64 be h hN sks _ (le_trans hx (le_max_left _ _)) p

theorem same_lut2 (h : x64 = false ∨ (2 ^ logN % 128 = 0 ∧ be.tpu ≥ 5)) (hN : logN ≤ 30)
    (sks : ServerKeySet d k logN params) (x y : Words d) (hy : 32 ≤ y.width) (t : Nat) :
    SameLow (X64.lut2 x64 be sks x y t) (JaxiteBool.lut2 be sks (lowWords x) (lowWords y) t) := by
  unfold X64.lut2 JaxiteBool.lut2 JaxiteBool.lutPoly
  simp only [same_poly x64 be h]
  refine SameLow.bind' _ _ _ fun p => ?_
  have e : (fun i => 2 * lowWords y i + lowWords x i) = lowWords ((y.scale 2).add x) :=
    funext fun i => by rw [low_add _ _ (show 32 ≤ (y.scale 2).width from hy), low_scale _ _ hy]; rfl
  rw [e]
  exact same_call x64 be h hN sks _ (le_trans hy (le_max_left _ _)) p

theorem same_lut3 (h : x64 = false ∨ (2 ^ logN % 128 = 0 ∧ be.tpu ≥ 5)) (hN : logN ≤ 30)
    (sks : ServerKeySet d k logN params) (x y z : Words d) (hy : 32 ≤ y.width) (hz : 32 ≤ z.width) (t : Nat) :
    SameLow (X64.lut3 x64 be sks x y z t) (JaxiteBool.lut3 be sks (lowWords x) (lowWords y) (lowWords z) t) := by
  unfold X64.lut3 JaxiteBool.lut3 JaxiteBool.lutPoly
  simp only [same_poly x64 be h]
  refine SameLow.bind' _ _ _ fun p => ?_
  have hzy : 32 ≤ ((z.scale 4).add (y.scale 2)).width := le_trans hz (le_max_left _ _)
  have e : (fun i => 4 * lowWords z i + 2 * lowWords y i + lowWords x i) =
      lowWords (((z.scale 4).add (y.scale 2)).add x) :=
    funext fun i => by
      rw [low_add _ _ hzy, low_add _ _ (show 32 ≤ (z.scale 4).width from hz), low_scale _ _ hz, low_scale _ _ hy]; rfl
  rw [e]
  exact same_call x64 be h hN sks _ (le_trans hzy (le_max_left _ _)) p

theorem same_constant (b : Bool) : SameLow (X64.constant b d) (Lwe.constant b d) := by
  unfold X64.constant
  cases Lwe.constant b d with
  | error e => exact .error e
  | ok x => exact .of_eq le_rfl (low_of_words x)

theorem same_not (x : Words d) : SameLow (X64.not_ x) (Lwe.not_ (lowWords x)) := by
  unfold X64.not_ Lwe.not_
  refine SameLow.bind (same_constant true) _ _ fun t ht => ?_
  exact .of_eq (le_trans ht (le_max_left _ _)) (funext fun i => low_sub t x ht i)

theorem same_lut1 (x : Words d) (hx : 32 ≤ x.width) (t : Int) :
    SameLow (X64.lut1 x t) (Lwe.lut1 (lowWords x) t) := by
  unfold X64.lut1 Lwe.lut1
  split
  · exact same_constant _
  · split
    · exact same_not x
    · split
      · exact .ok x hx
      · exact .error _

theorem same_run (h : x64 = false ∨ (2 ^ logN % 128 = 0 ∧ be.tpu ≥ 5)) (hN : logN ≤ 30)
    (sks : ServerKeySet d k logN params) (inputs : Nat → Words d) (hin : ∀ i, 32 ≤ (inputs i).width) (c : Circuit) :
    SameLow (X64.run x64 be sks inputs c) (c.run be sks (fun i => lowWords (inputs i))) := by
  induction c with
  | input i => exact .ok _ (hin i)
  | const b => exact same_constant b
  | not c ih => exact SameLow.bind ih _ _ fun x _ => same_not x
  | gate name l r ihl ihr =>
    exact SameLow.bind ihl _ _ fun x hx => SameLow.bind ihr _ _ fun y _ => same_gate2 x64 be h hN sks name x y hx
  | lut1 t a ih => exact SameLow.bind ih _ _ fun x hx => same_lut1 x hx t
  | lut2 t a b iha ihb =>
    exact SameLow.bind iha _ _ fun x _ => SameLow.bind ihb _ _ fun y hy => same_lut2 x64 be h hN sks x y hy t
  | lut3 t a b c iha ihb ihc =>
    exact SameLow.bind iha _ _ fun x _ => SameLow.bind ihb _ _ fun y hy => SameLow.bind ihc _ _ fun z hz =>
      same_lut3 x64 be h hN sks x y z hy hz t
  | cmux v1 v0 ctrl ih1 ih0 ihc =>
    refine SameLow.bind ih1 _ _ fun x hx => SameLow.bind ih0 _ _ fun y hy => SameLow.bind ihc _ _ fun z _ => ?_
    exact SameLow.bind' _ _ _ fun l => same_lut3 x64 be h hN sks z y x hy hx _

end

/-! ## Decryption -/

theorem low_round {w : Nat} (hw : 32 ≤ w) (x : BitVec w) :
    (((x >>> 28) + ((x >>> 27) &&& 1)) <<< 28).setWidth 32 = Encoding.roundToPowerOf2 (x.setWidth 32) 28 := by
  have h1 : (1 : BitVec w).toNat = 1 := by
    show (BitVec.ofNat w 1).toNat = 1
    rw [BitVec.toNat_ofNat, Nat.mod_eq_of_lt (Nat.one_lt_two_pow (by omega))]
  unfold Encoding.roundToPowerOf2
  apply BitVec.eq_of_toNat_eq
  simp only [BitVec.toNat_setWidth, BitVec.toNat_shiftLeft, BitVec.toNat_add, BitVec.toNat_ushiftRight,
    BitVec.toNat_and, h1, Nat.shiftRight_eq_div_pow, Nat.shiftLeft_eq, Nat.and_one_is_mod, BitVec.toNat_ofNat]
  rw [Nat.mod_mod_of_dvd _ (two_pow_dvd hw), Nat.mul_mod, Nat.mod_mod_of_dvd _ (two_pow_dvd hw)]
  norm_num [Nat.and_one_is_mod]
  omega

theorem decode_low {w : Nat} (hw : 32 ≤ w) (r : BitVec w) (v : Nat) (hv : v < 8) :
    ((r >>> 28) &&& BitVec.ofNat w ((1 <<< 3) - 1) = BitVec.ofNat w v) ↔
      ((r.setWidth 32 >>> 28) &&& BitVec.ofNat 32 ((1 <<< 3) - 1) = BitVec.ofNat 32 v) := by
  have hpow : 2 ^ 32 ≤ 2 ^ w := Nat.pow_le_pow_right (by norm_num) hw
  have h7 : (1 <<< 3) - 1 = 2 ^ 3 - 1 := rfl
  rw [h7]
  have hL : ((r >>> 28) &&& BitVec.ofNat w (2 ^ 3 - 1)).toNat = r.toNat / 2 ^ 28 % 2 ^ 3 := by
    rw [BitVec.toNat_and, BitVec.toNat_ofNat, BitVec.toNat_ushiftRight, Nat.shiftRight_eq_div_pow,
      Nat.mod_eq_of_lt (by omega : 2 ^ 3 - 1 < 2 ^ w), Nat.and_two_pow_sub_one_eq_mod]
  have hR : ((r.setWidth 32 >>> 28) &&& BitVec.ofNat 32 (2 ^ 3 - 1)).toNat = r.toNat / 2 ^ 28 % 2 ^ 3 := by
    rw [BitVec.toNat_and, BitVec.toNat_ofNat, BitVec.toNat_ushiftRight, Nat.shiftRight_eq_div_pow, BitVec.toNat_setWidth,
      Nat.mod_eq_of_lt (by omega : 2 ^ 3 - 1 < 2 ^ 32), Nat.and_two_pow_sub_one_eq_mod]
    omega
  rw [← BitVec.toNat_inj, ← BitVec.toNat_inj, hL, hR, BitVec.toNat_ofNat, BitVec.toNat_ofNat,
    Nat.mod_eq_of_lt (a := v) (by omega), Nat.mod_eq_of_lt (a := v) (by omega)]

theorem if_congr_bit {α : Type} {p p' q q' : Prop} [Decidable p] [Decidable p'] [Decidable q] [Decidable q']
    (hp : p ↔ p') (hq : q ↔ q') (x : α) (f : Bool → α) :
    (if p then x else f (decide q)) = if p' then x else f (decide q') := by
  rw [decide_eq_decide.mpr hq]
  by_cases h : p
  · rw [if_pos h, if_pos (hp.mp h)]
  · rw [if_neg h, if_neg (mt hp.mpr h)]

/-- C109: decryption only depends on the low words. -/
theorem C109_decrypt_low {d : Nat} (ct : Words d) (hw : 32 ≤ ct.width) (key : Fin d → W) :
    X64.boolDecrypt ct key = Lwe.boolDecrypt (lowWords ct) ⟨32, key⟩ := by
  have e1 : Lwe.decryptWithoutDenoising (lowWords ct) ⟨32, key⟩ =
      (ct.word (Fin.last d) - ∑ i, ct.word i.castSucc * (key i).setWidth ct.width).setWidth 32 := by
    unfold Lwe.decryptWithoutDenoising modLog Lwe.dot
    dsimp only
    rw [if_neg (lt_irrefl 32), low_minus hw, low_sum hw]
    refine congrArg _ (Finset.sum_congr rfl fun i _ => ?_)
    rw [BitVec.setWidth_mul _ _ hw, low_id hw]
    rfl
  have e4 : Encoding.decode (Lwe.decrypt (lowWords ct) ⟨32, key⟩ Encoding.boolParams) Encoding.boolParams =
      (Encoding.roundToPowerOf2 (Encoding.roundToPowerOf2
        (Lwe.decryptWithoutDenoising (lowWords ct) ⟨32, key⟩) 28) 28 >>> 28) &&& BitVec.ofNat 32 ((1 <<< 3) - 1) := rfl
  unfold Lwe.boolDecrypt
  dsimp only
  rw [e4, e1, ← low_round hw, ← low_round hw]
  unfold X64.boolDecrypt
  exact if_congr_bit (decode_low hw _ 2 (by norm_num)) (not_congr (decode_low hw _ 0 (by norm_num))) _ _

/-- C109 (part that holds): without the flag, or on a TPU of version 5 or later with a degree divisible by
128, a whole program raises the same exception as in a process without 64-bit types, or returns a ciphertext
with the same low words, which decrypts to the same bit under every key. The inputs may have words of any
width, as the outputs have. -/
theorem C109_program_same_partial (x64 : Bool) (be : Backend) {d k logN : Nat} {params : Parameters}
    (h : x64 = false ∨ (2 ^ logN % 128 = 0 ∧ be.tpu ≥ 5)) (hN : logN ≤ 30)
    (sks : ServerKeySet d k logN params) (inputs : Nat → Words d) (hin : ∀ i, 32 ≤ (inputs i).width) (c : Circuit) :
    (∃ e, X64.run x64 be sks inputs c = .error e ∧
      c.run be sks (fun i j => ((inputs i).word j).setWidth 32) = .error e) ∨
    ∃ x y, X64.run x64 be sks inputs c = .ok x ∧
      c.run be sks (fun i j => ((inputs i).word j).setWidth 32) = .ok y ∧
      (∀ j, (x.word j).setWidth 32 = y j) ∧
      ∀ key : Fin d → W, X64.boolDecrypt x key = Lwe.boolDecrypt y ⟨32, key⟩ := by
  have hs := same_run x64 be h hN sks inputs hin c
  change SameLow _ (c.run be sks (fun i j => ((inputs i).word j).setWidth 32)) at hs
  generalize X64.run x64 be sks inputs c = a at hs ⊢
  generalize c.run be sks (fun i j => ((inputs i).word j).setWidth 32) = b at hs ⊢
  cases hs with
  | error e => exact .inl ⟨e, rfl, rfl⟩
  | ok x hx => exact .inr ⟨x, lowWords x, rfl, rfl, fun _ => rfl, C109_decrypt_low x hx⟩

example (fdot : PolymulKernel.FloatDot) (params : Parameters) (sks : ServerKeySet 4 1 10 params)
    (inputs : Nat → Fin 5 → W) :=
  C109_program_same_partial true ⟨5, fdot⟩ (Or.inr ⟨by norm_num, by norm_num⟩) (by norm_num) sks
    (fun i => ⟨32, inputs i⟩) (fun _ => le_rfl) (.gate "and" (.gate "xor" (.input 0) (.input 1)) (.not (.input 2)))

/-- C109 (part that holds): the server key is then the same too. -/
theorem C109_server_key_same_partial (x64 : Bool) (be : Backend) {d k logN : Nat}
    (h : x64 = false ∨ (2 ^ logN % 128 = 0 ∧ be.tpu ≥ 5)) (params : Parameters) (cks : ClientKeySet d k logN)
    (a : Nat → Fin (k + 1) → Fin params.bsDecomp.levelCount → Fin k → Fin (2 ^ logN) → W)
    (e : Nat → Fin (k + 1) → Fin params.bsDecomp.levelCount → W)
    (ka : Fin (k * 2 ^ logN) → Fin params.ksDecomp.levelCount → Fin d → W)
    (ke : Fin (k * 2 ^ logN) → Fin params.ksDecomp.levelCount → W) :
    X64.mkServerKeySet x64 be params cks a e ka ke = JaxiteBool.mkServerKeySet be params cks a e ka ke := by
  obtain ⟨-, -, -, -, -, hgen, -, -⟩ := C109_same_partial x64 be (n := 2 ^ logN) h
  unfold X64.mkServerKeySet JaxiteBool.mkServerKeySet
  rw [hgen]

example (fdot : PolymulKernel.FloatDot) (params : Parameters) (cks : ClientKeySet 4 1 10) :=
  C109_server_key_same_partial true ⟨5, fdot⟩ (Or.inr ⟨by norm_num, by norm_num⟩) params cks

/-- Whether a program contains a gate that bootstraps. -/
def bootstraps : Circuit → Bool
  | .input _ | .const _ => false
  | .not c | .lut1 _ c => bootstraps c
  | .gate .. | .lut2 .. | .lut3 .. | .cmux .. => true

/-- C109 (negation): after the import, outside such a TPU, no server key can be made, every program with a
gate of two or three inputs raises, and the other programs do not notice. -/
theorem C109_program_negation (imports : List Module) (himp : ∃ m ∈ imports, m ≠ .other) (be : Backend)
    {d k logN : Nat} (hdev : ¬ (2 ^ logN % 128 = 0 ∧ be.tpu ≥ 5)) (params : Parameters) :
    (∀ (cks : ClientKeySet d k logN)
      (a : Nat → Fin (k + 1) → Fin params.bsDecomp.levelCount → Fin k → Fin (2 ^ logN) → W)
      (e : Nat → Fin (k + 1) → Fin params.bsDecomp.levelCount → W)
      (ka : Fin (k * 2 ^ logN) → Fin params.ksDecomp.levelCount → Fin d → W)
      (ke : Fin (k * 2 ^ logN) → Fin params.ksDecomp.levelCount → W),
      ∃ err, X64.mkServerKeySet (flagAfter imports) be params cks a e ka ke = .error err) ∧
    ∀ (sks : ServerKeySet d k logN params) (inputs : Nat → Words d) (c : Circuit),
      (bootstraps c = true → ∃ err, X64.run (flagAfter imports) be sks inputs c = .error err) ∧
      (bootstraps c = false → X64.run (flagAfter imports) be sks inputs c = X64.run false be sks inputs c) := by
  have hb := (C109_bootstrap_negation imports himp be (d := d) (k := k) (n := 2 ^ logN) hdev).2.2
  have hcall : ∀ (sks : ServerKeySet d k logN params) (ct : Words d) (t : Fin (k + 1) → Fin (2 ^ logN) → W),
      ∃ err, X64.callBootstrap (flagAfter imports) be sks ct t = .error err := by
    intro sks ct t
    unfold X64.callBootstrap
    rw [hb]
    exact ⟨_, rfl⟩
  have hseq : ∀ {α β : Type} (x : Except String α) (f : α → Except String β),
      (∀ a, ∃ err, f a = .error err) → ∃ err, (x >>= f) = .error err := by
    intro α β x f hf
    cases x with
    | error e => exact ⟨e, rfl⟩
    | ok a => exact hf a
  refine ⟨fun cks a e ka ke => ?_, fun sks inputs c => ?_⟩
  · have hc : polyMulCheck (flagAfter imports) be.tpu (2 ^ logN) = .error "TypeError" := by
      rw [(C109_flag imports).2 himp, check_eq,
        if_neg (by simp only [Bool.true_eq_false, false_or]; exact hdev)]
    have hg : ∃ err, X64.genBootstrappingKey (flagAfter imports) be cks.lweSk cks.rlweSk params.bsDecomp a e
        true false = .error err := by
      unfold X64.genBootstrappingKey
      simp only [hc]
      split
      · exact ⟨_, rfl⟩
      · exact ⟨_, rfl⟩
    obtain ⟨err, hg⟩ := hg
    unfold X64.mkServerKeySet
    rw [hg]
    exact ⟨err, rfl⟩
  · induction c with
    | input i => exact ⟨fun h => by simp [bootstraps] at h, fun _ => rfl⟩
    | const b => exact ⟨fun h => by simp [bootstraps] at h, fun _ => rfl⟩
    | not c ih =>
      refine ⟨fun h => ?_, fun h => ?_⟩
      · obtain ⟨err, he⟩ := ih.1 h
        exact ⟨err, by unfold X64.run; rw [he]; rfl⟩
      · unfold X64.run; rw [ih.2 h]
    | lut1 t c ih =>
      refine ⟨fun h => ?_, fun h => ?_⟩
      · obtain ⟨err, he⟩ := ih.1 h
        exact ⟨err, by unfold X64.run; rw [he]; rfl⟩
      · unfold X64.run; rw [ih.2 h]
    | gate name l r _ _ =>
      refine ⟨fun _ => ?_, fun h => by simp [bootstraps] at h⟩
      exact hseq _ _ fun x => hseq _ _ fun y => hseq _ _ fun l => hseq _ _ fun p => hcall sks _ p
    | lut2 t a b _ _ =>
      refine ⟨fun _ => ?_, fun h => by simp [bootstraps] at h⟩
      exact hseq _ _ fun x => hseq _ _ fun y => hseq _ _ fun p => hcall sks _ p
    | lut3 t a b c _ _ _ =>
      refine ⟨fun _ => ?_, fun h => by simp [bootstraps] at h⟩
      exact hseq _ _ fun x => hseq _ _ fun y => hseq _ _ fun z => hseq _ _ fun p => hcall sks _ p
    | cmux v1 v0 ctrl _ _ _ =>
      refine ⟨fun _ => ?_, fun h => by simp [bootstraps] at h⟩
      exact hseq _ _ fun x => hseq _ _ fun y => hseq _ _ fun z => hseq _ _ fun l => hseq _ _ fun p => hcall sks _ p

/-- A CPU after an import of the elliptic-curve package: a conjunction of two encryptions made before. -/
example (fdot : PolymulKernel.FloatDot) (params : Parameters) (sks : ServerKeySet 4 1 10 params)
    (inputs : Nat → Words 4) :
    ∃ err, X64.run (flagAfter [.ecFiniteField]) ⟨-1, fdot⟩ sks inputs (.not (.gate "and" (.input 0) (.input 1))) = .error err :=
  ((C109_program_negation [.ecFiniteField] ⟨.ecFiniteField, by decide, by decide⟩ ⟨-1, fdot⟩ (by simp) params).2
    sks inputs _).1 rfl

end Verif.Props
