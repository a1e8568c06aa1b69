import Verif.Lemmas.CkksObj
import Verif.Props.CkksRelin

/-!
# Property C89: products, relinearisation, addition and decryption on ciphertext objects
-/

namespace Verif.Props
open Verif.Barrett Verif.Slots Verif.CkksKeys Verif.CkksMul Verif.RescaleArr

namespace Obj
open Verif.CkksObj

/-- The limb `i` of element `a`: the values at the evaluation points. -/
def limb (A : Arr Nat) (a i : Nat) : Nat → Nat := fun p => A.get a p i

/-- Data of `els` elements over the moduli `ms`: one limb for each modulus, reduced values. -/
structure Fits (k : Nat) (ms : List Nat) (els : Nat) (A : Arr Nat) : Prop where
  e : A.e = els
  n : A.n = 2 ^ k
  l : A.l = ms.length
  red : ∀ a, a < els → ∀ p, p < 2 ^ k → ∀ i, i < ms.length → A.get a p i < ms.getD i 0

/-- What an element pair represents under the secret `s`, modulo the limb `i`. -/
noncomputable def phase (k : Nat) (ms : List Nat) (s : Nat → Int) (A : Arr Nat) (i : Nat) : Rq k (ms.getD i 0) :=
  ringOf k (ms.getD i 0) (limb A 0 i) + ringOf k (ms.getD i 0) (limb A 1 i) * polyOf k (ms.getD i 0) s

/-- A secret key object for the coefficients `s`. -/
structure Holds (k : Nat) (s : Nat → Int) (sk : SkObj) : Prop where
  fits : Fits k sk.moduli 1 sk.data
  ring : ∀ i, i < sk.moduli.length → ringOf k (sk.moduli.getD i 0) (limb sk.data 0 i) = polyOf k (sk.moduli.getD i 0) s

/-- The arrays of an evaluation key as a list of parts. -/
def keysOf (evk : EvkObj) : EvalKeys :=
  { a := (List.range evk.a.e).map (keyPart evk.a), b := (List.range evk.b.e).map (keyPart evk.b), moduli := evk.moduli }

theorem getD_prefix {ms all : List Nat} (h : ms = all.take ms.length) {i : Nat} (hi : i < ms.length) :
    ms.getD i 0 = all.getD i 0 := by
  rw [h, RescaleArr.getD_take _ _ hi]

theorem tensor_ring {k m i : Nat} (hp : NttPrime k m) {A B T : Arr Nat}
    (ht : ∀ p, p < 2 ^ k → T.get 0 p i = A.get 0 p i * B.get 0 p i % m ∧
      T.get 1 p i = (A.get 0 p i * B.get 1 p i + A.get 1 p i * B.get 0 p i) % m ∧
      T.get 2 p i = A.get 1 p i * B.get 1 p i % m) :
    ringOf k m (limb T 0 i) = ringOf k m (limb A 0 i) * ringOf k m (limb B 0 i) ∧
    ringOf k m (limb T 1 i) = ringOf k m (limb A 0 i) * ringOf k m (limb B 1 i) +
      ringOf k m (limb A 1 i) * ringOf k m (limb B 0 i) ∧
    ringOf k m (limb T 2 i) = ringOf k m (limb A 1 i) * ringOf k m (limb B 1 i) := by
  refine ⟨?_, ?_, ?_⟩
  · rw [ringOf_eq_iff hp]
    intro t h
    rw [map_mul, slot_ringOf hp _ t h, slot_ringOf hp _ t h]
    unfold limb
    rw [(ht t h).1, ZMod.natCast_mod, Nat.cast_mul]
  · rw [ringOf_eq_iff hp]
    intro t h
    rw [map_add, map_mul, map_mul, slot_ringOf hp _ t h, slot_ringOf hp _ t h, slot_ringOf hp _ t h, slot_ringOf hp _ t h]
    unfold limb
    rw [(ht t h).2.1, ZMod.natCast_mod, Nat.cast_add, Nat.cast_mul, Nat.cast_mul]
  · rw [ringOf_eq_iff hp]
    intro t h
    rw [map_mul, slot_ringOf hp _ t h, slot_ringOf hp _ t h]
    unfold limb
    rw [(ht t h).2.2, ZMod.natCast_mod, Nat.cast_mul]

end Obj
open Obj

/-- C89: `tensor_multiply` on two objects of at least two elements over the same moduli below `2^31` returns an object of three
elements over these moduli: limb by limb `a0 b0`, `a0 b1 + a1 b0` and `a1 b1`, reduced. -/
theorem C89_tensor (k : Nat) (K : CkksMul.Kernel) (ms : List Nat) (hlt : ∀ m ∈ ms, 0 < m ∧ m < 2 ^ 31)
    (A B : CtObj) (eA eB : Nat) (hA : Fits k ms eA A.data) (hB : Fits k ms eB B.data) (h2A : 2 ≤ eA) (h2B : 2 ≤ eB)
    (hmA : A.moduli = ms) :
    ∃ T, CkksObj.tensorMultiply (some K) A B = .ok T ∧ T.moduli = ms ∧ Fits k ms 3 T.data ∧
      ∀ p, p < 2 ^ k → ∀ i, i < ms.length →
        T.data.get 0 p i = A.data.get 0 p i * B.data.get 0 p i % ms.getD i 0 ∧
        T.data.get 1 p i = (A.data.get 0 p i * B.data.get 1 p i + A.data.get 1 p i * B.data.get 0 p i) % ms.getD i 0 ∧
        T.data.get 2 p i = A.data.get 1 p i * B.data.get 1 p i % ms.getD i 0 := by
  have hc := CkksObj.compat_self
  obtain ⟨T, hT⟩ : ∃ T, CkksObj.tensorMultiply (some K) A B = .ok T :=
    ⟨_, CkksObj.tensor_ok_iff.2 ⟨⟨by rw [hA.e]; omega, by rw [hB.e]; omega, by rw [hA.n, hB.n]; exact hc _,
      by rw [hA.l, hB.l]; exact hc _, by rw [hA.l, hB.l, hmA, CkksObj.bd_self]; exact hc _⟩, rfl⟩⟩
  have hv := (CkksObj.tensor_ok_iff.1 hT).2
  have val : ∀ p, p < 2 ^ k → ∀ i, i < ms.length →
      T.data.get 0 p i = A.data.get 0 p i * B.data.get 0 p i % ms.getD i 0 ∧
      T.data.get 1 p i = (A.data.get 0 p i * B.data.get 1 p i + A.data.get 1 p i * B.data.get 0 p i) % ms.getD i 0 ∧
      T.data.get 2 p i = A.data.get 1 p i * B.data.get 1 p i % ms.getD i 0 := by
    intro p hp i hi
    have hm := hlt _ (getD_mem hi)
    have a0 := hA.red 0 (by omega) p hp i hi
    have a1 := hA.red 1 (by omega) p hp i hi
    have b0 := hB.red 0 (by omega) p hp i hi
    have b1 := hB.red 1 (by omega) p hp i hi
    rw [hv]
    simp only [hA.e, hB.e, hA.n, hB.n, hA.l, hB.l, hmA, CkksObj.bd_self, RescaleArr.pick_eq hi, RescaleArr.pick_eq hp]
    rw [Nat.min_eq_left (by omega : 0 ≤ eA - 1), Nat.min_eq_left (by omega : 1 ≤ eA - 1),
      Nat.min_eq_left (by omega : 0 ≤ eB - 1), Nat.min_eq_left (by omega : 1 ≤ eB - 1)]
    rw [mul64_eq (by omega) (by omega), mul64_eq (by omega) (by omega), mul64_eq (by omega) (by omega),
      mul64_eq (by omega) (by omega)]
    have hsum : A.data.get 0 p i * B.data.get 1 p i + A.data.get 1 p i * B.data.get 0 p i < 2 ^ 64 := by
      have e1 : A.data.get 0 p i * B.data.get 1 p i ≤ 2 ^ 31 * 2 ^ 31 := Nat.mul_le_mul (by omega) (by omega)
      have e2 : A.data.get 1 p i * B.data.get 0 p i ≤ 2 ^ 31 * 2 ^ 31 := Nat.mul_le_mul (by omega) (by omega)
      omega
    have hadd : add64 (A.data.get 0 p i * B.data.get 1 p i) (A.data.get 1 p i * B.data.get 0 p i) =
        A.data.get 0 p i * B.data.get 1 p i + A.data.get 1 p i * B.data.get 0 p i := Nat.mod_eq_of_lt hsum
    have hmod : ∀ x, x % ms.getD i 0 % 2 ^ 32 = x % ms.getD i 0 := fun x =>
      Nat.mod_eq_of_lt (by have := Nat.mod_lt x hm.1; omega)
    rw [hadd]
    simp only [if_true, Nat.one_ne_zero, if_false, hmod, OfNat.ofNat_ne_zero, OfNat.ofNat_ne_one]
    exact ⟨trivial, trivial, trivial⟩
  refine ⟨T, hT, by rw [hv]; exact hmA, ⟨by rw [hv], by rw [hv]; simp only [hA.n, hB.n, CkksObj.bd_self],
    by rw [hv]; simp only [hA.l, hB.l, hmA, CkksObj.bd_self], ?_⟩, val⟩
  intro a ha p hp i hi
  have hm := hlt _ (getD_mem hi)
  obtain ⟨v0, v1, v2⟩ := val p hp i hi
  have : a = 0 ∨ a = 1 ∨ a = 2 := by omega
  rcases this with rfl | rfl | rfl
  · rw [v0]; exact Nat.mod_lt _ hm.1
  · rw [v1]; exact Nat.mod_lt _ hm.1
  · rw [v2]; exact Nat.mod_lt _ hm.1

/-- C89: exactly which operands `tensor_multiply` accepts: both need an element; numbers of rows and of limbs must agree or be
one, also with the number of moduli of the first operand. Moduli are not compared, neither with each other nor with the kernel. -/
theorem C89_tensor_accepts (K : CkksMul.Kernel) (A B : CtObj) :
    (∃ T, CkksObj.tensorMultiply (some K) A B = .ok T) ↔
      0 < A.data.e ∧ 0 < B.data.e ∧ (A.data.n = B.data.n ∨ A.data.n = 1 ∨ B.data.n = 1) ∧
      (A.data.l = B.data.l ∨ A.data.l = 1 ∨ B.data.l = 1) ∧
      (A.data.l = A.moduli.length ∨ A.data.l = 1 ∨ A.moduli.length = 1) ∧
      (B.data.l = A.moduli.length ∨ B.data.l = 1 ∨ A.moduli.length = 1) := by
  have key := CkksObj.compat_bd_iff (a := A.data.l) (b := B.data.l) (c := A.moduli.length)
  constructor
  · rintro ⟨T, hT⟩
    obtain ⟨⟨h1, h2, h3, h4, h5⟩, -⟩ := CkksObj.tensor_ok_iff.1 hT
    exact ⟨h1, h2, h3, key.1 ⟨h4, h5⟩⟩
  · rintro ⟨h1, h2, h3, h4⟩
    obtain ⟨h5, h6⟩ := key.2 h4
    exact ⟨_, CkksObj.tensor_ok_iff.2 ⟨⟨h1, h2, h3, h5, h6⟩, rfl⟩⟩

/-- The result of `decrypt` for any number of elements. -/
theorem Obj.decrypt_phase (k : Nat) (s : Nat → Int) (sk : CkksObj.SkObj) (hsk : Holds k s sk) (ct : CtObj) (els : Nat) (h2 : 0 < els)
    (hpre : ct.moduli <+: sk.moduli) (h : Moduli k ct.moduli) (hct : Fits k ct.moduli els ct.data) :
    ∃ P, CkksObj.decrypt sk ct = .ok P ∧ P.moduli = ct.moduli ∧ Fits k ct.moduli 1 P.data ∧
      ∀ i, i < ct.moduli.length →
        polyOf k (ct.moduli.getD i 0) (fun p => (P.data.get 0 p i : Int)) =
          ringOf k (ct.moduli.getD i 0) (limb ct.data 0 i) +
            ringOf k (ct.moduli.getD i 0) (limb ct.data (min 1 (els - 1)) i) * polyOf k (ct.moduli.getD i 0) s := by
  have htake : ct.moduli = sk.moduli.take ct.moduli.length := List.prefix_iff_eq_take.1 hpre
  have hlen := hpre.length_le
  obtain ⟨C, c1, c2, c3⟩ := inttMat_ringOf h (CkksObj.decryptArg sk ct)
  have hc := CkksObj.compat_self
  have hok := (CkksObj.decrypt_ok_iff (P := ⟨⟨1, CkksObj.bd ct.data.n sk.data.n, ct.moduli.length, fun _ p i => C i p % 2 ^ 32⟩, ct.moduli⟩)
    hsk.fits.e hsk.fits.l (ct := ct)).2 ⟨⟨htake, by rw [hct.e]; omega, by rw [hct.n, hsk.fits.n]; exact hc _,
      by rw [hct.l]; exact hc _, by rw [hct.l, CkksObj.bd_self]⟩, C, by rw [hct.n, hsk.fits.n, CkksObj.bd_self]; exact c1, rfl⟩
  have hval : ∀ i, i < ct.moduli.length → ∀ p, p < 2 ^ k → C i p % 2 ^ 32 = C i p := by
    intro i hi p hp
    have := c2 i hi p hp
    have := (h.at hi).2
    exact Nat.mod_eq_of_lt (by omega)
  refine ⟨_, hok, rfl, ⟨rfl, by simp only [hct.n, hsk.fits.n, CkksObj.bd_self], rfl, ?_⟩, ?_⟩
  · intro a _ p hp i hi
    simp only [hval i hi p hp]
    exact c2 i hi p hp
  · intro i hi
    have e1 : polyOf k (ct.moduli.getD i 0) (fun p => ((C i p % 2 ^ 32 : Nat) : Int)) =
        polyOf k (ct.moduli.getD i 0) (fun p => (C i p : Int)) := by
      apply polyOf_congr
      intro p hp
      rw [hval i hi p hp]
    simp only
    rw [e1, c3 i hi]
    obtain ⟨hp, hm32⟩ := h.at hi
    have hq0 := hp.prime.pos
    have hg := getD_prefix htake hi
    have hs := hsk.ring i (by omega)
    rw [← hg] at hs
    rw [← hs, ringOf_eq_iff hp]
    intro p hp'
    rw [map_add, map_mul, slot_ringOf hp _ p hp', slot_ringOf hp _ p hp', slot_ringOf hp _ p hp']
    have z0 := hct.red 0 (by omega) p hp' i hi
    have z1 := hct.red (min 1 (els - 1)) (by omega) p hp' i hi
    have z2 := hsk.fits.red 0 (by omega) p hp' i (by omega)
    rw [← hg] at z2
    unfold CkksObj.decryptArg limb
    simp only [hct.e, hct.n, hct.l, hsk.fits.n, RescaleArr.pick_eq hi, RescaleArr.pick_eq hp']
    rw [Nat.min_eq_left (by omega : 0 ≤ els - 1)]
    generalize min 1 (els - 1) = j at *
    rw [mul64_eq (by omega) (by omega)]
    have z4 := Nat.mod_lt (ct.data.get j p i * sk.data.get 0 p i) hq0
    have z5 : add64 (ct.data.get 0 p i) (ct.data.get j p i * sk.data.get 0 p i % ct.moduli.getD i 0) =
        ct.data.get 0 p i + ct.data.get j p i * sk.data.get 0 p i % ct.moduli.getD i 0 := by unfold add64; omega
    rw [z5, ZMod.natCast_mod]
    simp only [Nat.cast_add, Nat.cast_mul, ZMod.natCast_mod]

/-- C89: `decrypt` of an object of at least two elements over a prefix of the moduli of the key returns, modulo every limb,
the coefficients of `c0 + c1 s`; further elements are left out. -/
theorem C89_decrypt (k : Nat) (s : Nat → Int) (sk : CkksObj.SkObj) (hsk : Holds k s sk) (ct : CtObj) (els : Nat) (h2 : 2 ≤ els)
    (hpre : ct.moduli <+: sk.moduli) (h : Moduli k ct.moduli) (hct : Fits k ct.moduli els ct.data) :
    ∃ P, CkksObj.decrypt sk ct = .ok P ∧ P.moduli = ct.moduli ∧ Fits k ct.moduli 1 P.data ∧
      ∀ i, i < ct.moduli.length →
        polyOf k (ct.moduli.getD i 0) (fun p => (P.data.get 0 p i : Int)) = phase k ct.moduli s ct.data i := by
  obtain ⟨P, p1, p2, p3, p4⟩ := decrypt_phase k s sk hsk ct els (by omega) hpre h hct
  rw [Nat.min_eq_left (by omega : 1 ≤ els - 1)] at p4
  exact ⟨P, p1, p2, p3, p4⟩

/-- C89: an object of a single element is not refused: it is used twice, so that the result is `c0 (1 + s)`. -/
theorem C89_decrypt_single (k : Nat) (s : Nat → Int) (sk : CkksObj.SkObj) (hsk : Holds k s sk) (ct : CtObj)
    (hpre : ct.moduli <+: sk.moduli) (h : Moduli k ct.moduli) (hct : Fits k ct.moduli 1 ct.data) :
    ∃ P, CkksObj.decrypt sk ct = .ok P ∧ P.moduli = ct.moduli ∧
      ∀ i, i < ct.moduli.length →
        polyOf k (ct.moduli.getD i 0) (fun p => (P.data.get 0 p i : Int)) =
          ringOf k (ct.moduli.getD i 0) (limb ct.data 0 i) * (1 + polyOf k (ct.moduli.getD i 0) s) := by
  obtain ⟨P, p1, p2, -, p4⟩ := decrypt_phase k s sk hsk ct 1 (by omega) hpre h hct
  refine ⟨P, p1, p2, fun i hi => ?_⟩
  rw [p4 i hi]
  simp only [Nat.sub_self, Nat.min_zero]
  ring

/-- C89: exactly which ciphertexts `decrypt` accepts, for a well-formed key and moduli that admit the transform: the moduli must
be a prefix of those of the key and there must be an element; rows and limbs must fit or be one, and a single modulus accepts
any number of limbs. The number of elements is not checked. -/
theorem C89_decrypt_accepts (k : Nat) (s : Nat → Int) (sk : CkksObj.SkObj) (hsk : Holds k s sk) (ct : CtObj)
    (hne : ct.moduli ≠ []) (h : Moduli k ct.moduli) (hk : 0 < k) :
    (∃ P, CkksObj.decrypt sk ct = .ok P) ↔
      ct.moduli <+: sk.moduli ∧ 0 < ct.data.e ∧ (ct.data.n = 2 ^ k ∨ ct.data.n = 1) ∧ 0 < ct.data.l ∧
      (ct.data.l = ct.moduli.length ∨ ct.data.l = 1 ∨ ct.moduli.length = 1) := by
  have hL := List.length_pos_iff.2 hne
  obtain ⟨C, c1, -⟩ := inttMat_ringOf h (CkksObj.decryptArg sk ct)
  constructor
  · rintro ⟨P, hP⟩
    obtain ⟨⟨h1, h2, h3, h4, h5⟩, -⟩ := (CkksObj.decrypt_ok_iff hsk.fits.e hsk.fits.l).1 hP
    rw [hsk.fits.n] at h3
    refine ⟨List.prefix_iff_eq_take.2 h1, h2, ?_, ?_, h4⟩
    · rcases h3 with h3 | h3 | h3
      · exact Or.inl h3
      · exact Or.inr h3
      · exact absurd h3 (by have := Nat.one_lt_two_pow (n := k) (by omega); omega)
    · by_contra h0
      have h0 : ct.data.l = 0 := by omega
      rw [h0] at h5
      simp only [CkksObj.bd, Nat.zero_ne_one, if_false] at h5
      omega
  · rintro ⟨h1, h2, h3, h4, h5⟩
    have hbn : CkksObj.bd ct.data.n sk.data.n = 2 ^ k := by
      rw [hsk.fits.n]
      unfold CkksObj.bd
      rcases h3 with h3 | h3
      · rw [h3]; split <;> rfl
      · rw [if_pos h3]
    refine ⟨_, (CkksObj.decrypt_ok_iff hsk.fits.e hsk.fits.l).2 ⟨⟨List.prefix_iff_eq_take.1 h1, h2, ?_, h5, ?_⟩, C,
      by rw [hbn]; exact c1, rfl⟩⟩
    · rw [hsk.fits.n]
      rcases h3 with h3 | h3
      · exact Or.inl h3
      · exact Or.inr (Or.inl h3)
    · unfold CkksObj.bd
      rcases h5 with h5 | h5 | h5
      · rw [h5]; split <;> omega
      · rw [if_pos h5]
      · split <;> omega

/-- C89: `tensor_multiply`, `relinearize` and `decrypt` on objects: for a kernel of the moduli, an evaluation key for `s^2` and
operands over the moduli, the three calls succeed and return, modulo every limb, the product of what the operands represent,
up to the noise of C45. Missing for the full statement of C89: operands over other moduli are not refused (`C89_negation`). -/
theorem C89_multiply_partial (kr kc : Nat) (q p : List Nat) (h : Basis kr kc q p) (dnum : Nat) (hd : 0 < dnum)
    (original : List Nat) (deg : Nat) (hdrop : Dropped original deg q)
    (s : Nat → Int) (hs : Binary s) (sk : CkksObj.SkObj) (hsk : Holds (kr + kc) s sk) (hqsk : q <+: sk.moduli)
    (A C : CtObj) (eA eC : Nat) (h2A : 2 ≤ eA) (h2C : 2 ≤ eC) (hA : Fits (kr + kc) q eA A.data) (hC : Fits (kr + kc) q eC C.data)
    (hmA : A.moduli = q)
    (src : Mat) (hsrc : ∀ i, i < q.length → ringOf (kr + kc) (q.getD i 0) (src i) = polyOf (kr + kc) (q.getD i 0) s ^ 2)
    (e : Nat → Nat → Int) (B : Int) (hB0 : 0 ≤ B) (hB : ∀ part, part < dnum → ∀ t, t < 2 ^ (kr + kc) → |e part t| ≤ B)
    (evk : CkksObj.EvkObj) (hka : Fits (kr + kc) (q ++ p) dnum evk.a) (hkb : Fits (kr + kc) (q ++ p) dnum evk.b)
    (hk : SwitchKey (kr + kc) q p dnum s src e (keysOf evk)) :
    ∃ K T R P, precomputeMul original p dnum (2 ^ kr) (2 ^ kc) deg = .ok K ∧
      CkksObj.tensorMultiply (some K) A C = .ok T ∧ CkksObj.relinearize (some K) T evk = .ok R ∧
      R.moduli = q ∧ Fits (kr + kc) q 2 R.data ∧
      CkksObj.decrypt sk R = .ok P ∧ P.moduli = q ∧ Fits (kr + kc) q 1 P.data ∧
      ∃ η : Nat → Int,
        (∀ t, t < 2 ^ (kr + kc) → (p.prod : Int) * |η t| ≤
          (∑ part ∈ Finset.range dnum,
            2 ^ (kr + kc) * (((partModuli q dnum part).length * (partModuli q dnum part).prod : Nat) : Int) * B) +
          ((p.length * p.prod : Nat) : Int) * (1 + 2 ^ (kr + kc))) ∧
        ∀ i, i < q.length →
          polyOf (kr + kc) (q.getD i 0) (fun t => (P.data.get 0 t i : Int)) =
            phase (kr + kc) q s A.data i * phase (kr + kc) q s C.data i + polyOf (kr + kc) (q.getD i 0) η := by
  have hq : Moduli (kr + kc) q := h.left
  have hKx := precomputeMul_ok h dnum hd original deg hdrop
  have hlt : ∀ m ∈ q, 0 < m ∧ m < 2 ^ 31 := fun m hm =>
    ⟨(hq.ntt m hm).prime.pos, (h.four m (List.mem_append_left _ hm)).good.lt⟩
  obtain ⟨T, t1, t2, t3, t4⟩ := C89_tensor (kr + kc) (kernelOf kr kc q p dnum) q hlt A C eA eC hA hC h2A h2C hmA
  have hred : ∀ a, a < 3 → Reduced (kr + kc) q (fun i t => T.data.get a t i) := fun a ha i hi t ht => t3.red a ha t ht i hi
  obtain ⟨K, r0, r1, e1, e2, e3, e4, η, e5, e6⟩ := C45_relinearize kr kc q p h dnum hd original deg hdrop
    (fun i t => T.data.get 0 t i) (fun i t => T.data.get 1 t i) (fun i t => T.data.get 2 t i)
    (hred 0 (by omega)) (hred 1 (by omega)) (hred 2 (by omega))
    s 1 (by norm_num) (fun t _ => by rcases hs t with h | h <;> rw [h] <;> norm_num) src hsrc e B hB0 hB (keysOf evk) hk
  have hKK : K = kernelOf kr kc q p dnum := Except.ok.inj (e1.symm.trans hKx)
  subst hKK
  have hdeg : 2 ^ kr * 2 ^ kc = 2 ^ (kr + kc) := (pow_add 2 kr kc).symm
  have hR : CkksObj.relinearize (some (kernelOf kr kc q p dnum)) T evk =
      .ok ⟨⟨2, 2 ^ (kr + kc), q.length, fun a t i => if a = 0 then r0 i t else r1 i t⟩, q⟩ := by
    unfold CkksObj.relinearize
    have k1 : (kernelOf kr kc q p dnum).r * (kernelOf kr kc q p dnum).c = 2 ^ (kr + kc) := hdeg
    have k2 : (kernelOf kr kc q p dnum).moduliQ = q := rfl
    have k3 : (kernelOf kr kc q p dnum).moduliP = p := rfl
    have hl : (q ++ p).length = q.length + p.length := List.length_append
    simp only [k1, k2, k3]
    rw [if_neg (by rw [t3.e]; omega), if_neg (by rw [t3.l]; simp), if_neg (by rw [t3.n]; simp),
      if_neg (by rw [hka.n, hkb.n]; simp), if_neg (by rw [hka.l, hkb.l, hl]; simp)]
    have e2' : CkksMul.relinearize (some (kernelOf kr kc q p dnum)) (fun i t => T.data.get 0 t i) (fun i t => T.data.get 1 t i)
      (fun i t => T.data.get 2 t i)
      { a := (List.range evk.a.e).map (CkksObj.keyPart evk.a), b := (List.range evk.b.e).map (CkksObj.keyPart evk.b), moduli := evk.moduli } =
      .ok (r0, r1) := e2
    rw [e2', t2]
    rfl
  have hRf : Fits (kr + kc) q 2 (⟨2, 2 ^ (kr + kc), q.length, fun a t i => if a = 0 then r0 i t else r1 i t⟩ : Arr Nat) := by
    refine ⟨rfl, rfl, rfl, ?_⟩
    intro a _ t ht i hi
    simp only
    split
    · exact e3 i hi t ht
    · exact e4 i hi t ht
  obtain ⟨P, p1, p2, p3, p4⟩ := C89_decrypt (kr + kc) s sk hsk
    ⟨⟨2, 2 ^ (kr + kc), q.length, fun a t i => if a = 0 then r0 i t else r1 i t⟩, q⟩ 2 (le_refl 2) hqsk hq hRf
  refine ⟨_, T, _, P, e1, t1, hR, rfl, hRf, p1, p2, p3, η, ?_, ?_⟩
  · intro t ht
    have := e5 t ht
    rwa [mul_one] at this
  · intro i hi
    rw [p4 i hi]
    have e7 : phase (kr + kc) q s (⟨2, 2 ^ (kr + kc), q.length, fun a t i => if a = 0 then r0 i t else r1 i t⟩ : Arr Nat) i =
        ringOf (kr + kc) (q.getD i 0) (r0 i) + ringOf (kr + kc) (q.getD i 0) (r1 i) * polyOf (kr + kc) (q.getD i 0) s := rfl
    rw [e7, e6 i hi]
    congr 1
    have hp := (hq.at hi).1
    obtain ⟨w0, w1, w2⟩ := tensor_ring hp (A := A.data) (B := C.data) (fun t ht => t4 t ht i hi)
    have w0' : ringOf (kr + kc) (q.getD i 0) (fun t => T.data.get 0 t i) = _ := w0
    have w1' : ringOf (kr + kc) (q.getD i 0) (fun t => T.data.get 1 t i) = _ := w1
    have w2' : ringOf (kr + kc) (q.getD i 0) (fun t => T.data.get 2 t i) = _ := w2
    rw [w0', w1', w2']
    unfold phase
    ring

/-- C89: without `relinearize` the third element of a product is silently left out: decryption returns, modulo every limb, the
product of what the operands represent minus `a1 b1 s^2`. -/
theorem C89_unrelinearized (k : Nat) (K : CkksMul.Kernel) (s : Nat → Int) (sk : CkksObj.SkObj) (hsk : Holds k s sk)
    (A B : CtObj) (eA eB : Nat) (h2A : 2 ≤ eA) (h2B : 2 ≤ eB) (hpre : A.moduli <+: sk.moduli) (h : Moduli k A.moduli)
    (hlt : ∀ m ∈ A.moduli, m < 2 ^ 31) (hA : Fits k A.moduli eA A.data) (hB : Fits k A.moduli eB B.data) :
    ∃ T P, CkksObj.tensorMultiply (some K) A B = .ok T ∧ CkksObj.decrypt sk T = .ok P ∧ P.moduli = A.moduli ∧
      ∀ i, i < A.moduli.length →
        polyOf k (A.moduli.getD i 0) (fun p => (P.data.get 0 p i : Int)) =
          phase k A.moduli s A.data i * phase k A.moduli s B.data i -
          ringOf k (A.moduli.getD i 0) (limb A.data 1 i) * ringOf k (A.moduli.getD i 0) (limb B.data 1 i) *
            polyOf k (A.moduli.getD i 0) s ^ 2 := by
  obtain ⟨T, t1, t2, t3, t4⟩ := C89_tensor k K A.moduli (fun m hm => ⟨(h.ntt m hm).prime.pos, hlt m hm⟩) A B eA eB hA hB h2A h2B rfl
  obtain ⟨Td, Tm⟩ := T
  simp only at t2
  subst t2
  obtain ⟨P, p1, p2, -, p4⟩ := C89_decrypt k s sk hsk ⟨Td, A.moduli⟩ 3 (by omega) hpre h t3
  refine ⟨⟨Td, A.moduli⟩, P, t1, p1, p2, ?_⟩
  intro i hi
  rw [p4 i hi]
  obtain ⟨w0, w1, -⟩ := tensor_ring (h.at hi).1 (A := A.data) (B := B.data) (fun t ht => t4 t ht i hi)
  unfold phase
  rw [w0, w1]
  ring

/-- C89: the product with a plaintext over the same moduli, with the constants of these moduli, multiplies every element. -/
theorem C89_plain (k : Nat) (ms : List Nat) (hg : ∀ m ∈ ms, GoodModulus m) (ct : CtObj) (pt : CkksObj.PtObj) (els : Nat)
    (hct : Fits k ms els ct.data) (hpt : Fits k ms 1 pt.data) (hm1 : ct.moduli = ms) (hm2 : pt.moduli = ms) :
    ∃ T, CkksObj.mulBarrett (some ms) ct pt = .ok T ∧ T.moduli = ms ∧ Fits k ms els T.data ∧
      ∀ a, a < els → ∀ p, p < 2 ^ k → ∀ i, i < ms.length →
        T.data.get a p i = ct.data.get a p i * pt.data.get 0 p i % ms.getD i 0 := by
  have hc := CkksObj.compat_self
  obtain ⟨T, hT⟩ : ∃ T, CkksObj.mulBarrett (some ms) ct pt = .ok T :=
    ⟨_, (CkksObj.mulBarrett_ok_iff hpt.e).2 ⟨⟨hm1.trans hm2.symm, by rw [hct.n, hpt.n]; exact hc _,
      by rw [hct.l, hpt.l]; exact hc _, by rw [hct.l, hpt.l, CkksObj.bd_self]; exact hc _⟩, rfl⟩⟩
  have hv := ((CkksObj.mulBarrett_ok_iff hpt.e).1 hT).2
  have val : ∀ a, a < els → ∀ p, p < 2 ^ k → ∀ i, i < ms.length →
      T.data.get a p i = ct.data.get a p i * pt.data.get 0 p i % ms.getD i 0 := by
    intro a ha p hp i hi
    have hm := hg _ (getD_mem hi)
    have z0 := hct.red a ha p hp i hi
    have z1 := hpt.red 0 (by omega) p hp i hi
    have hlt := hm.lt
    rw [hv]
    simp only [hct.e, hct.n, hct.l, hpt.n, hpt.l, CkksObj.bd_self, RescaleArr.pick_eq hi, RescaleArr.pick_eq hp, RescaleArr.pick_eq ha]
    have hl := Nat.mod_lt (ct.data.get a p i * pt.data.get 0 p i) (show 0 < ms.getD i 0 by omega)
    rw [mul64_eq (by omega) (by omega), C28_reduction_partial _ _ hm (lt_two_pow_of_lt_sq (Nat.mul_lt_mul'' z0 z1))]
    exact Nat.mod_eq_of_lt (by omega)
  refine ⟨T, hT, by rw [hv]; exact hm1, ⟨by rw [hv]; exact hct.e, by rw [hv]; simp only [hct.n, hpt.n, CkksObj.bd_self],
    by rw [hv]; simp only [hct.l, hpt.l, CkksObj.bd_self], ?_⟩, val⟩
  intro a ha p hp i hi
  rw [val a ha p hp i hi]
  have := hct.red a ha p hp i hi
  exact Nat.mod_lt _ (by omega)

/-- C89: exactly which operands the product with a plaintext accepts: the moduli must be the same list, rows and limbs must agree
or be one, also with the number of constants. The moduli of the constants are not compared. -/
theorem C89_plain_accepts (ms : List Nat) (ct : CtObj) (pt : CkksObj.PtObj) (he : pt.data.e = 1) :
    ((∃ T, CkksObj.mulBarrett (some ms) ct pt = .ok T) ↔
      ct.moduli = pt.moduli ∧ (ct.data.n = pt.data.n ∨ ct.data.n = 1 ∨ pt.data.n = 1) ∧
      (ct.data.l = pt.data.l ∨ ct.data.l = 1 ∨ pt.data.l = 1) ∧
      (ct.data.l = ms.length ∨ ct.data.l = 1 ∨ ms.length = 1) ∧ (pt.data.l = ms.length ∨ pt.data.l = 1 ∨ ms.length = 1)) ∧
    ((∃ T, CkksObj.mulSimple ct pt = .ok T) ↔
      ct.moduli = pt.moduli ∧ (ct.data.n = pt.data.n ∨ ct.data.n = 1 ∨ pt.data.n = 1) ∧
      (ct.data.l = pt.data.l ∨ ct.data.l = 1 ∨ pt.data.l = 1)) ∧
    CkksObj.mulBarrett none ct pt = .error "ValueError" := by
  have key := CkksObj.compat_bd_iff (a := ct.data.l) (b := pt.data.l) (c := ms.length)
  refine ⟨⟨?_, ?_⟩, ⟨?_, ?_⟩, rfl⟩
  · rintro ⟨T, hT⟩
    obtain ⟨⟨h1, h2, h3, h4⟩, -⟩ := (CkksObj.mulBarrett_ok_iff he).1 hT
    exact ⟨h1, h2, key.1 ⟨h3, h4⟩⟩
  · rintro ⟨h1, h2, h3⟩
    exact ⟨_, (CkksObj.mulBarrett_ok_iff he).2 ⟨⟨h1, h2, key.2 h3⟩, rfl⟩⟩
  · rintro ⟨T, hT⟩
    exact ((CkksObj.mulSimple_ok_iff he).1 hT).1
  · intro h
    exact ⟨_, (CkksObj.mulSimple_ok_iff he).2 ⟨h, rfl⟩⟩

/-- C89: `AddModularSubtract` on data over its moduli adds every element modulo every limb. -/
theorem C89_add (k : Nat) (ms : List Nat) (hlt : ∀ m ∈ ms, m ≤ 2 ^ 31) (A B : Arr Nat) (els : Nat)
    (hA : Fits k ms els A) (hB : Fits k ms els B) :
    ∃ C, CkksObj.addSubtract ms A B = .ok C ∧ Fits k ms els C ∧
      ∀ a, a < els → ∀ p, p < 2 ^ k → ∀ i, i < ms.length → C.get a p i = (A.get a p i + B.get a p i) % ms.getD i 0 := by
  have hc := CkksObj.compat_self
  obtain ⟨C, hC⟩ : ∃ C, CkksObj.addSubtract ms A B = .ok C :=
    ⟨_, CkksObj.addSubtract_ok_iff.2 ⟨⟨by rw [hA.e, hB.e]; exact hc _, by rw [hA.n, hB.n]; exact hc _,
      by rw [hA.l, hB.l]; exact hc _, by rw [hA.l, hB.l, CkksObj.bd_self]; exact hc _⟩, rfl⟩⟩
  have hv := (CkksObj.addSubtract_ok_iff.1 hC).2
  have val : ∀ a, a < els → ∀ p, p < 2 ^ k → ∀ i, i < ms.length → C.get a p i = (A.get a p i + B.get a p i) % ms.getD i 0 := by
    intro a ha p hp i hi
    have hm := hlt _ (getD_mem hi)
    have z0 := hA.red a ha p hp i hi
    have z1 := hB.red a ha p hp i hi
    rw [hv]
    simp only [hA.e, hB.e, hA.n, hB.n, hA.l, hB.l, CkksObj.bd_self, RescaleArr.pick_eq hi, RescaleArr.pick_eq hp, RescaleArr.pick_eq ha]
    rw [Nat.mod_eq_of_lt (by omega : A.get a p i + B.get a p i < 2 ^ 32)]
    split
    · rename_i hge
      rw [Nat.mod_eq_sub_mod hge, Nat.mod_eq_of_lt (by omega)]
    · rw [Nat.mod_eq_of_lt (by omega)]
  refine ⟨C, hC, ⟨by rw [hv]; simp only [hA.e, hB.e, CkksObj.bd_self], by rw [hv]; simp only [hA.n, hB.n, CkksObj.bd_self],
    by rw [hv]; simp only [hA.l, hB.l, CkksObj.bd_self], ?_⟩, val⟩
  intro a ha p hp i hi
  rw [val a ha p hp i hi]
  have := hA.red a ha p hp i hi
  exact Nat.mod_lt _ (by omega)

/-- C89: `AddModularSubtract` accepts whatever can be broadcast; the moduli of the operands are not known to it. -/
theorem C89_add_accepts (ms : List Nat) (A B : Arr Nat) :
    (∃ C, CkksObj.addSubtract ms A B = .ok C) ↔
      (A.e = B.e ∨ A.e = 1 ∨ B.e = 1) ∧ (A.n = B.n ∨ A.n = 1 ∨ B.n = 1) ∧ (A.l = B.l ∨ A.l = 1 ∨ B.l = 1) ∧
      (A.l = ms.length ∨ A.l = 1 ∨ ms.length = 1) ∧ (B.l = ms.length ∨ B.l = 1 ∨ ms.length = 1) := by
  have key := CkksObj.compat_bd_iff (a := A.l) (b := B.l) (c := ms.length)
  constructor
  · rintro ⟨T, hT⟩
    obtain ⟨⟨h1, h2, h3, h4⟩, -⟩ := CkksObj.addSubtract_ok_iff.1 hT
    exact ⟨h1, h2, key.1 ⟨h3, h4⟩⟩
  · rintro ⟨h1, h2, h3⟩
    obtain ⟨h4, h5⟩ := key.2 h3
    exact ⟨_, CkksObj.addSubtract_ok_iff.2 ⟨⟨h1, h2, h4, h5⟩, rfl⟩⟩

/-- C89: `relinearize` looks neither at the moduli of the ciphertext nor at those of the key, nor at elements after the third. -/
theorem C89_relin_ignores (K : CkksMul.Kernel) (d : Arr Nat) (e : Nat) (he : 3 ≤ e) (a b : Arr Nat) (ms ms' mk mk' : List Nat) :
    (CkksObj.relinearize (some K) ⟨{ d with e := e }, ms⟩ ⟨a, b, mk⟩).map CtObj.data =
    (CkksObj.relinearize (some K) ⟨{ d with e := 3 }, ms'⟩ ⟨a, b, mk'⟩).map CtObj.data := by
  have hk : ∀ (d0 d1 d2 : Mat) (la lb : List Mat), CkksMul.relinearize (some K) d0 d1 d2 ⟨la, lb, mk⟩ =
      CkksMul.relinearize (some K) d0 d1 d2 ⟨la, lb, mk'⟩ := fun _ _ _ _ _ => rfl
  unfold CkksObj.relinearize
  simp only
  simp only [if_neg (by omega : ¬ e < 3), if_neg (by omega : ¬ (3 : Nat) < 3)]
  split
  · rfl
  split
  · rfl
  split
  · rfl
  split
  · rfl
  rw [hk]
  cases CkksMul.relinearize (some K) (fun i p => d.get 0 p i) (fun i p => d.get 1 p i) (fun i p => d.get 2 p i)
    ⟨(List.range a.e).map (CkksObj.keyPart a), (List.range b.e).map (CkksObj.keyPart b), mk'⟩ with
  | error x => rfl
  | ok r => rfl

namespace Obj

/-- An object of two elements whose first one is the constant `v` and whose second one is zero: a noiseless encryption of `v`
with zero randomness. -/
def constObj (ms : List Nat) (v : Nat) : CtObj := ⟨⟨2, 2, ms.length, fun a _ i => if a = 0 then v % ms.getD i 0 else 0⟩, ms⟩

/-- The plaintext of the constant `v`. -/
def constPt (ms : List Nat) (v : Nat) : CkksObj.PtObj := ⟨⟨1, 2, ms.length, fun _ _ i => v % ms.getD i 0⟩, ms⟩

/-- Moduli and the limbs of element 0 at point 0. -/
def view (x : Except String CtObj) : Option (List Nat × List Nat) :=
  match x with
  | .ok c => some (c.moduli, (List.range c.data.l).map (fun i => c.data.get 0 0 i))
  | .error _ => none

def noKernel : CkksMul.Kernel := ⟨[], [], 1, 1, [], [], [], []⟩

end Obj

/-- C89 does not hold in full: operands that do not belong together are accepted. The moduli of the second factor of
`tensor_multiply` are not looked at: -1 over `[5]` times 1 over `[5, 13]` is 4 modulo 13 instead of 12, and 12 over `[5, 11]` times 1
over `[5, 13]` is 27. The constants of the plaintext product may be those of other moduli: 11 times 1 over `[5, 13]` with the
constants of `[7]` is 4 modulo 13. Adding 3 over `[5]` to 1 over `[5, 13]` is right, adding -1 is not. -/
theorem C89_negation (K : CkksMul.Kernel) :
    view (CkksObj.tensorMultiply (some K) (constObj [5, 13] 1) (constObj [5] 4)) = some ([5, 13], [4, 4]) ∧
    view (CkksObj.tensorMultiply (some K) (constObj [5, 13] 1) (constObj [5, 13] 64)) = some ([5, 13], [4, 12]) ∧
    view (CkksObj.tensorMultiply (some K) (constObj [5, 13] 1) (constObj [5, 11] 12)) = some ([5, 13], [27 % 5, 27 % 13]) ∧
    view (CkksObj.mulBarrett (some [7]) (constObj [5, 13] 11) (constPt [5, 13] 1)) = some ([5, 13], [1, 4]) ∧
    view (CkksObj.mulBarrett (some [5, 13]) (constObj [5, 13] 11) (constPt [5, 13] 1)) = some ([5, 13], [1, 11]) ∧
    (CkksObj.addSubtract [5, 13] (constObj [5, 13] 1).data (constObj [5] 4).data).map (fun A => [A.get 0 0 0, A.get 0 0 1]) =
      .ok [0, 5] := by
  have hK : CkksObj.tensorMultiply (some K) = CkksObj.tensorMultiply (some noKernel) := rfl
  rw [hK]
  decide +kernel

/-- The arrays of a generated evaluation key meet the hypotheses of `C89_multiply_partial`. -/
theorem C89_key_arrays (k : Nat) (q p : List Nat) (h : Moduli k (q ++ p)) (dnum : Nat) (s : Nat → Int) (src : Mat)
    (e : Nat → Nat → Int) (keys : EvalKeys) (hk : SwitchKey k q p dnum s src e keys) (evk : CkksObj.EvkObj)
    (ha : evk.a = ⟨dnum, 2 ^ k, (q ++ p).length, fun part t i => keys.a.getD part (fun _ _ => 0) i t⟩)
    (hb : evk.b = ⟨dnum, 2 ^ k, (q ++ p).length, fun part t i => keys.b.getD part (fun _ _ => 0) i t⟩) :
    Fits k (q ++ p) dnum evk.a ∧ Fits k (q ++ p) dnum evk.b ∧ SwitchKey k q p dnum s src e (keysOf evk) := by
  have gA : ∀ part, part < dnum → (keysOf evk).a.getD part (fun _ _ => 0) = CkksObj.keyPart evk.a part := by
    intro part hp
    unfold keysOf
    rw [List.getD_eq_getElem _ _ (by simp [ha]; exact hp)]
    simp
  have gB : ∀ part, part < dnum → (keysOf evk).b.getD part (fun _ _ => 0) = CkksObj.keyPart evk.b part := by
    intro part hp
    unfold keysOf
    rw [List.getD_eq_getElem _ _ (by simp [hb]; exact hp)]
    simp
  have vA : ∀ part, ∀ i, i < (q ++ p).length → ∀ t, t < 2 ^ k →
      CkksObj.keyPart evk.a part i t = keys.a.getD part (fun _ _ => 0) i t := by
    intro part i hi t ht
    unfold CkksObj.keyPart
    rw [ha]
    simp only [RescaleArr.pick_eq hi, RescaleArr.pick_eq ht]
  have vB : ∀ part, ∀ i, i < (q ++ p).length → ∀ t, t < 2 ^ k →
      CkksObj.keyPart evk.b part i t = keys.b.getD part (fun _ _ => 0) i t := by
    intro part i hi t ht
    unfold CkksObj.keyPart
    rw [hb]
    simp only [RescaleArr.pick_eq hi, RescaleArr.pick_eq ht]
  refine ⟨⟨by rw [ha], by rw [ha], by rw [ha], ?_⟩, ⟨by rw [hb], by rw [hb], by rw [hb], ?_⟩, ⟨by simp [keysOf, ha], by simp [keysOf, hb], ?_, ?_, ?_⟩⟩
  · intro part hpart t ht i hi
    rw [ha]
    exact hk.redA part hpart i hi t ht
  · intro part hpart t ht i hi
    rw [hb]
    exact hk.redB part hpart i hi t ht
  · intro part hpart i hi t ht
    rw [gA part hpart, vA part i hi t ht]
    exact hk.redA part hpart i hi t ht
  · intro part hpart i hi t ht
    rw [gB part hpart, vB part i hi t ht]
    exact hk.redB part hpart i hi t ht
  · intro part hpart i hi
    rw [gA part hpart, gB part hpart]
    have hp := (h.at hi).1
    rw [ringOf_congr hp (fun t ht => by rw [vA part i hi t ht] : ∀ t, t < 2 ^ k →
        ((CkksObj.keyPart evk.a part i t : Nat) : ZMod ((q ++ p).getD i 0)) = (keys.a.getD part (fun _ _ => 0) i t : Nat)),
      ringOf_congr hp (fun t ht => by rw [vB part i hi t ht] : ∀ t, t < 2 ^ k →
        ((CkksObj.keyPart evk.b part i t : Nat) : ZMod ((q ++ p).getD i 0)) = (keys.b.getD part (fun _ _ => 0) i t : Nat))]
    exact hk.rel part hpart i hi

/-- The hypotheses of `C89_multiply_partial` are met by generated keys for a non-zero secret and non-zero operands, one of them with a
third element. -/
theorem Obj.setting : ∃ (s : Nat → Int) (sk : CkksObj.SkObj) (evk : CkksObj.EvkObj) (src : Mat) (e : Nat → Nat → Int) (A C : CtObj),
    Binary s ∧ s 1 = 1 ∧ Holds 1 s sk ∧ [12289, 40961] <+: sk.moduli ∧
    (∀ i, i < 2 → ringOf 1 ([12289, 40961].getD i 0) (src i) = polyOf 1 ([12289, 40961].getD i 0) s ^ 2) ∧
    (∀ part, part < 2 → ∀ t, t < 2 ^ 1 → |e part t| ≤ 3) ∧
    Fits 1 ([12289, 40961] ++ [65537]) 2 evk.a ∧ Fits 1 ([12289, 40961] ++ [65537]) 2 evk.b ∧
    SwitchKey 1 [12289, 40961] [65537] 2 s src e (keysOf evk) ∧
    Fits 1 [12289, 40961] 3 A.data ∧ Fits 1 [12289, 40961] 2 C.data ∧ A.moduli = [12289, 40961] ∧ A.data.get 1 1 1 = 1001 ∧
    Dropped [12289, 40961, 65537] 1 [12289, 40961] := by
  have hb := basis_example
  obtain ⟨pk, sk, -, h⟩ := C40_keygen_holds 1 [12289, 40961] hb.left (fun p => if p = 1 then 1 else 0) (fun _ => 0) (fun _ _ => 0)
  have hs : Binary (fun p => if p = 1 then 1 else 0) := fun p => by by_cases hp : p = 1 <;> simp [hp]
  obtain ⟨keys, src, -, h2, h3⟩ := C45_generated_evaluation_key 1 [12289, 40961] [65537] hb.left hb.right (by decide) 2 (by decide)
    _ hs sk h (fun part => (fun i t => part + i + t, fun _ => 3))
  obtain ⟨k1, k2, k3⟩ := C89_key_arrays 1 [12289, 40961] [65537] hb.moduli 2 _ src _ keys h3
    ⟨⟨2, 2 ^ 1, 3, fun part t i => keys.a.getD part (fun _ _ => 0) i t⟩,
      ⟨2, 2 ^ 1, 3, fun part t i => keys.b.getD part (fun _ _ => 0) i t⟩, []⟩ rfl rfl
  have h2m : ∀ i, i < [12289, 40961].length → 12288 < ([12289, 40961] : List Nat).getD i 0 := by decide
  refine ⟨_, ⟨⟨1, 2 ^ 1, 2, fun _ p i => sk.data i p⟩, [12289, 40961]⟩, _, src, _,
    ⟨⟨3, 2, 2, fun a p i => (1000 * a * p + i) % 12289⟩, [12289, 40961]⟩, ⟨⟨2, 2, 2, fun a p i => (a + 2 * p + i) % 12289⟩, [12289, 40961]⟩,
    hs, rfl, ⟨⟨rfl, rfl, rfl, fun a _ p hp i hi => h.reduced i hi p hp⟩, fun i hi => h.ring i hi⟩, List.prefix_refl _, h2,
    ?_, k1, k2, k3, ⟨rfl, rfl, rfl, ?_⟩, ⟨rfl, rfl, rfl, ?_⟩, rfl, rfl,
    ⟨by decide, [65537], rfl, rfl⟩⟩
  · intro part _ t _; norm_num
  · intro a _ p _ i hi
    have := h2m i hi
    have := Nat.mod_lt (1000 * a * p + i) (by norm_num : 12289 > 0)
    simp only
    omega
  · intro a _ p _ i hi
    have := h2m i hi
    have := Nat.mod_lt (a + 2 * p + i) (by norm_num : 12289 > 0)
    simp only
    omega

/-- The same moduli meet the hypotheses of the plaintext product and of the addition (`C89_plain`, `C89_plain_accepts`,
`C89_add`); `setting` above meets those of `C89_tensor`, `C89_decrypt`, `C89_decrypt_accepts`, `C89_unrelinearized` and, for
an object of one array, `C89_decrypt_single`; its proof uses `C89_key_arrays`. -/
example : Moduli 1 [12289, 40961] ∧ (∀ m ∈ [12289, 40961], GoodModulus m ∧ m ≤ 2 ^ 31) ∧
    Fits 1 [12289, 40961] 1 (constPt [12289, 40961] 20000).data ∧ Fits 1 [12289, 40961] 2 (constObj [12289, 40961] 30000).data := by
  refine ⟨basis_example.left, fun m hm => ?_, ⟨rfl, rfl, rfl, ?_⟩, ⟨rfl, rfl, rfl, ?_⟩⟩
  · have := (basis_example.four m (List.mem_append_left _ hm)).good
    exact ⟨this, this.lt.le⟩
  · decide
  · decide

/-- The calls of `C89_multiply_partial` succeed in this case;
by `C89_relin_ignores` other declared moduli give the same. -/
example : ∃ K A C T evk R, CkksObj.tensorMultiply (some K) A C = .ok T ∧ CkksObj.relinearize (some K) T evk = .ok R ∧
    A.data.get 1 1 1 = 1001 := by
  obtain ⟨s, sk, evk, src, e, A, C, h1, -, h2, h3, h4, h5, h6, h7, h8, h9, h10, h11, h12, h13⟩ := setting
  obtain ⟨K, T, R, P, -, r2, r3, -⟩ := C89_multiply_partial 0 1 [12289, 40961] [65537] basis_example 2 (by decide) _ 1 h13 s h1 sk h2 h3
    A C 3 2 (by decide) (by decide) h9 h10 h11 src h4 e 3 (by decide) h5 evk h6 h7 h8
  exact ⟨K, A, C, T, evk, R, r2, r3, h12⟩

end Verif.Props
