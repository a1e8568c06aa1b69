import Verif.Props.CkksSamplers

/-!
# Property C78: keys and ciphertexts of the CKKS package, for every behaviour of the generator
-/

namespace Verif.Props
open Verif.Helpers Verif.CkksKeys Verif.CkksMul Verif.CkksRotate Verif.CkksSession Verif.Encode Verif.Slots

variable {σ : Type}

theorem ofExceptOk {α : Type} (x : Except String α) (a : α) (h : x = .ok a) (s : σ) :
    (MonadExcept.ofExcept x : CkksSession.Draw σ α) s = .ok (a, s) := by
  rw [h]; rfl

theorem moduli_pos {k : Nat} {ms : List Nat} (h : Moduli k ms) : ∀ q ∈ ms, 0 < q := fun q hq => (h.ntt q hq).prime.pos

/-- The draws of `keygen`. -/
theorem keygenRandom_ok {rng : Rng σ} {B : Int} (hr : RngOk rng B) (k : Nat) (ms : List Nat) (h : Moduli k ms)
    (hw : Option Nat) (hwt : ∀ w, hw = some w → w ≤ 2 ^ k) (st : σ) :
    ∃ s e a st', Binary s ∧ (∀ p, |e p| ≤ B) ∧
      (∀ w, hw = some w → ((Finset.range (2 ^ k)).filter (fun p => s p = 1)).card = w) ∧
      ∀ pk sk, keygen (2 ^ k) ms s e a = .ok (pk, sk) → keygenRandom rng (2 ^ k) ms hw st = .ok ((pk, sk), st') := by
  obtain ⟨s, s1, e1, hs, hsw⟩ : ∃ s s1, (match hw with
      | some w => sparseCoeffs rng (2 ^ k) w
      | none => ternaryCoeffs rng (2 ^ k)) st = .ok (s, s1) ∧ Binary s ∧
      (∀ w, hw = some w → ((Finset.range (2 ^ k)).filter (fun p => s p = 1)).card = w) := by
    cases hw with
    | none =>
      obtain ⟨c, s', h1, h2⟩ := ternaryCoeffs_ok hr (2 ^ k) st
      exact ⟨c, s', h1, h2, fun w hw => by cases hw⟩
    | some w =>
      obtain ⟨c, s', h1, h2, h3⟩ := sparseCoeffs_ok hr (2 ^ k) w (hwt w rfl) st
      exact ⟨c, s', h1, h2, fun w' hw => by cases hw; exact h3⟩
  obtain ⟨a, s2, e2, -⟩ := genUniformPoly_ok hr (2 ^ k) ms (moduli_pos h) s1
  obtain ⟨e, s3, e3, he⟩ := gaussianCoeffs_ok hr (2 ^ k) s2
  refine ⟨s, e, a, s3, hs, he, hsw, ?_⟩
  intro pk sk hk
  unfold keygenRandom
  cases hw with
  | none =>
    simp only at e1 ⊢
    rw [bindOk _ _ _ _ _ e1, bindOk _ _ _ _ _ e2, bindOk _ _ _ _ _ e3]; exact ofExceptOk _ _ hk _
  | some w =>
    simp only at e1 ⊢
    rw [bindOk _ _ _ _ _ e1, bindOk _ _ _ _ _ e2, bindOk _ _ _ _ _ e3]; exact ofExceptOk _ _ hk _

theorem encryptRandom_ok {rng : Rng σ} {B : Int} (hr : RngOk rng B) (k : Nat) (pk : PublicKey) (pt : Plaintext)
    (hm : pt.moduli = pk.moduli.take pt.moduli.length) (st : σ) :
    ∃ v e0 e1 st', Binary v ∧ (∀ p, |e0 p| ≤ B) ∧ (∀ p, |e1 p| ≤ B) ∧
      ∀ ct, encrypt (2 ^ k) pk pt v e0 e1 = .ok ct → encryptRandom rng (2 ^ k) pk pt st = .ok (ct, st') := by
  obtain ⟨v, s1, h1, hv⟩ := ternaryCoeffs_ok hr (2 ^ k) st
  obtain ⟨e0, s2, h2, he0⟩ := gaussianCoeffs_ok hr (2 ^ k) s1
  obtain ⟨e1, s3, h3, he1⟩ := gaussianCoeffs_ok hr (2 ^ k) s2
  refine ⟨v, e0, e1, s3, hv, he0, he1, ?_⟩
  intro ct hct
  unfold encryptRandom
  rw [if_neg (not_not.2 hm)]
  simp only
  rw [bindOk _ _ _ _ _ h1, bindOk _ _ _ _ _ h2, bindOk _ _ _ _ _ h3]
  exact ofExceptOk _ _ hct _

theorem binary_abs {s : Nat → Int} (h : Binary s) (p : Nat) : |s p| ≤ 1 := by
  rcases h p with e | e <;> rw [e] <;> norm_num

theorem prefix_take (ms : List Nat) (n : Nat) : ms.take n = ms.take (ms.take n).length := by
  simp only [List.length_take]
  rcases Nat.le_total n ms.length with hn | hn
  · rw [Nat.min_eq_left hn]
  · rw [Nat.min_eq_right hn, List.take_of_length_le hn, List.take_length]

/-- The noise of a fresh encryption: `v e + e0 + e1 s` with binary `v`, `s` and errors at most `B`. -/
def freshNoise (k : Nat) (B : Int) : Int := 2 ^ k * B + B + 2 ^ k * B

/-- C78: key generation returns a pair for every behaviour of the generator; its secret key is binary, of the requested
Hamming weight if one is given; encoding and encryption under the public key return, also for every behaviour, a
ciphertext that holds the slots up to `N (1/2 + W) / scale` with `W = 2 N B + B`, and decryption and decoding return
them. -/
theorem C78_session (rng : Rng σ) (B : Int) (hB0 : 0 ≤ B) (hr : RngOk rng B) (k t : Nat) (hk : k = t + 1) (ms : List Nat)
    (h : Moduli k ms) (hnd : ms.Nodup) (hw : Option Nat) (hwt : ∀ w, hw = some w → w ≤ 2 ^ k)
    (rnd : ℝ → ℤ) (hrnd : ∀ x, |(rnd x : ℝ) - x| ≤ 1 / 2) (scale : ℝ) (hsc : 0 < scale) (st : σ) :
    ∃ pk sk st' s, keygenRandom rng (2 ^ k) ms hw st = .ok ((pk, sk), st') ∧ Binary s ∧
      (∀ w, hw = some w → ((Finset.range (2 ^ k)).filter (fun p => s p = 1)).card = w) ∧ HoldsKey k ms s sk ∧ pk.moduli = ms ∧
    ∀ (n : Nat) (slots : List ℂ), slots.length ≤ 2 ^ t → ∀ (X : ℝ), 0 ≤ X → (∀ z ∈ slots, ‖z‖ ≤ X) → ∀ st1 : σ,
    ∃ pt ct st2 m, encode rnd (2 ^ k) (ms.take n) scale slots = .ok pt ∧
      encryptRandom rng (2 ^ k) pk pt st1 = .ok (ct, st2) ∧ Holds k (ms.take n) s ct m ∧
      (∀ p, p < 2 ^ k → |(m p : ℝ)| ≤ X * scale + 1 / 2 + freshNoise k B) ∧
      (∀ j, j < 2 ^ t → ‖slotsOf (2 ^ k) m scale j - slots.getD j 0‖ ≤ 2 ^ k * ((1 / 2 + freshNoise k B) / scale)) ∧
      (ms.take n ≠ [] → 2 * (X * scale + 1 / 2 + freshNoise k B) < (ms.take n).prod → ∀ numSlots, numSlots ≤ 2 ^ t →
        ∃ pt' out, decrypt (2 ^ k) sk ct = .ok pt' ∧ decode (some (scale, numSlots)) (2 ^ k) pt' false = .ok out ∧
          out.length = numSlots ∧
          ∀ j, j < numSlots → ‖out.getD j 0 - slots.getD j 0‖ ≤ 2 ^ k * ((1 / 2 + freshNoise k B) / scale)) := by
  obtain ⟨s, e, a, st', hs, he, hsw, hgen⟩ := keygenRandom_ok hr k ms h hw hwt st
  obtain ⟨pk, sk, k1, k2, k3⟩ := C72_encrypt k t hk ms h s e a 1 B 1 (by norm_num) hB0 (by norm_num)
    (fun p _ => binary_abs hs p) (fun p _ => he p) rnd hrnd scale hsc
  obtain ⟨pk', sk', k1', hpkm, -⟩ := keygen_spec k ms h s e a
  obtain ⟨rfl, rfl⟩ := Prod.mk.inj (Except.ok.inj (k1.symm.trans k1'))
  refine ⟨pk, sk, st', s, hgen pk sk k1, hs, hsw, k2, hpkm, ?_⟩
  intro n slots hsl X hX0 hX st1
  -- the encoding does not depend on the draws
  obtain ⟨pt, x, x1, x2, -⟩ := C69_encode t (ms.take n) (hk ▸ h.take n) rnd hrnd scale hsc slots hsl X hX0 hX
  rw [← hk] at x1
  obtain ⟨v, e0, e1, st2, hv, he0, he1, henc⟩ := encryptRandom_ok hr k pk pt (by rw [x2, hpkm]; exact prefix_take ms n) st1
  obtain ⟨pt2, ct, m, y1, y2, y3, y4, y5⟩ := k3 n slots hsl X hX0 hX v e0 e1
    (fun p _ => ⟨binary_abs hv p, he0 p, he1 p⟩) (freshNoise k B) (by unfold freshNoise; linarith)
  obtain rfl := Except.ok.inj (x1.symm.trans y1)
  refine ⟨pt, ct, st2, m, x1, henc ct y2, y3, y4, y5, ?_⟩
  intro hne hrange numSlots hn
  obtain ⟨pt', d1, d2⟩ := C72_decode k t hk ms h hnd s sk k2 n hne ct m y3 (by
    intro p hp
    have h1 := abs_le.1 (y4 p hp)
    generalize (ms.take n).prod = Q at hrange
    constructor
    · have : (-(Q : ℤ) : ℝ) < ((2 * m p : ℤ) : ℝ) := by push_cast; linarith [h1.1]
      exact_mod_cast this
    · have : ((2 * m p : ℤ) : ℝ) ≤ ((Q : ℤ) : ℝ) := by push_cast; linarith [h1.2]
      exact_mod_cast this) scale numSlots
  obtain ⟨c1, c2⟩ := slots_close hn y5
  exact ⟨pt', _, d1, d2, c1, c2⟩

theorem kskDraws_ok {rng : Rng σ} {B : Int} (hr : RngOk rng B) (degree : Nat) (ms : List Nat) (hm : ∀ q ∈ ms, 0 < q) (n : Nat)
    (st : σ) : ∃ l st', kskDraws rng degree ms n st = .ok (l, st') ∧ l.length = n ∧ ∀ part p, |(drawOf l part).2 p| ≤ max B 0 := by
  induction n generalizing st with
  | zero =>
    refine ⟨[], st, rfl, rfl, fun part p => ?_⟩
    simp [drawOf]
  | succ n ih =>
    obtain ⟨a, s1, h1, -⟩ := genUniformPoly_ok hr degree ms hm st
    obtain ⟨e, s2, h2, he⟩ := gaussianCoeffs_ok hr degree s1
    obtain ⟨l, s3, h3, h4, h5⟩ := ih s2
    refine ⟨(a, e) :: l, s3, ?_, by simp [h4], ?_⟩
    · unfold kskDraws
      rw [bindOk _ _ _ _ _ h1, bindOk _ _ _ _ _ h2, bindOk _ _ _ _ _ h3]
      rfl
    · intro part p
      cases part with
      | zero => exact (he p).trans (le_max_left _ _)
      | succ part => exact h5 part p

/-- C78: evaluation, conjugation and rotation keys are generated for every behaviour of the generator, with errors within
its bound. -/
theorem C78_keys (rng : Rng σ) (B : Int) (hB0 : 0 ≤ B) (hr : RngOk rng B) (k : Nat) (q p : List Nat) (hq : Moduli k q)
    (hp : Moduli k p) (hne : q ≠ []) (dnum : Nat) (hd : 0 < dnum) (s : Nat → Int) (hs : Binary s) (sk : SecretKey)
    (hsk : HoldsKey k q s sk) (st : σ) :
    (∃ rand keys st', genEvaluationKeyRandom rng (2 ^ k) sk q p dnum st = .ok (keys, st') ∧
      genEvaluationKey (2 ^ k) sk q p dnum rand = .ok keys ∧ ∀ part x, |(rand part).2 x| ≤ B) ∧
    (∃ rand keys st', genConjugateKeyRandom rng (2 ^ k) sk q p dnum st = .ok (keys, st') ∧
      genConjugateKey (2 ^ k) sk q p dnum rand = .ok keys ∧ ∀ part x, |(rand part).2 x| ≤ B) ∧
    (∀ beta j, beta ≤ 1 → p.prod < 2 ^ 64 → ∃ ext rand0 rand1 key st', extendSecretKey (2 ^ k) sk (q ++ p) = .ok ext ∧
      genHmuxrotKeyRandom rng (2 ^ k) sk beta j q p (some ext) st = .ok (key, st') ∧
      genHmuxrotKey (2 ^ k) sk beta j q p rand0 rand1 (some ext) = .ok key ∧
      ∀ x, |rand0.2 x| ≤ B ∧ |rand1.2 x| ≤ B) := by
  have hpos : ∀ m ∈ q ++ p, 0 < m := moduli_pos (hq.append hp)
  have hmax : max B 0 = B := max_eq_left hB0
  refine ⟨?_, ?_, ?_⟩
  · obtain ⟨l, st', h1, -, h3⟩ := kskDraws_ok hr (2 ^ k) (q ++ p) hpos dnum st
    obtain ⟨keys, -, g1, -⟩ := C45_generated_evaluation_key k q p hq hp hne dnum hd s hs sk hsk (drawOf l)
    refine ⟨drawOf l, keys, st', ?_, g1, fun part x => hmax ▸ h3 part x⟩
    unfold genEvaluationKeyRandom
    rw [bindOk _ _ _ _ _ h1]
    exact ofExceptOk _ _ g1 _
  · obtain ⟨l, st', h1, -, h3⟩ := kskDraws_ok hr (2 ^ k) (q ++ p) hpos dnum st
    obtain ⟨sInv, hs0, hsj⟩ : ∃ sInv : Nat → Int, sInv 0 = s 0 ∧ ∀ j, 0 < j → j < 2 ^ k → sInv (2 ^ k - j) = -s j := by
      refine ⟨fun j => if j = 0 then s 0 else -s (2 ^ k - j), by simp, ?_⟩
      intro j h1 h2
      simp only
      rw [if_neg (by omega), show 2 ^ k - (2 ^ k - j) = j by omega]
    obtain ⟨keys, g1, -⟩ := C40_conjugate_key k q p hq hp hne dnum hd s sInv hs hs0 hsj sk hsk (drawOf l)
    refine ⟨drawOf l, keys, st', ?_, g1, fun part x => hmax ▸ h3 part x⟩
    unfold genConjugateKeyRandom
    rw [bindOk _ _ _ _ _ h1]
    exact ofExceptOk _ _ g1 _
  · intro beta j hb hP
    obtain ⟨l, st', h1, -, h3⟩ := kskDraws_ok hr (2 ^ k) (q ++ p) hpos 2 st
    obtain ⟨ext, x1, x2⟩ := C40_extend k q p hq hp hne s hs sk hsk
    obtain ⟨g, g1, g2, g3, g4⟩ := rotationGenerator_spec k j
    obtain ⟨sRot, hrot⟩ := C42_subst_exists k g g2 s
    obtain ⟨key, y1, -⟩ := C46_generated_key k q p hq hp s sk hsk ext x2 beta j hb hP g g3 g4 sRot hrot (drawOf l 0) (drawOf l 1)
    refine ⟨ext, drawOf l 0, drawOf l 1, key, st', x1, ?_, y1, fun x => ⟨hmax ▸ h3 0 x, hmax ▸ h3 1 x⟩⟩
    unfold genHmuxrotKeyRandom
    rw [bindOk _ _ _ _ _ h1]
    exact ofExceptOk _ _ y1 _

theorem cmRow_ok (rng : Rng σ) (degree : Nat) (pk : PublicKey) (plain0 plain1 : Plaintext) (P : Bool → Ciphertext → Prop)
    (hP : ∀ (b : Bool) (st : σ), ∃ ct st', encryptRandom rng degree pk (if b then plain1 else plain0) st = .ok (ct, st') ∧ P b ct)
    (i n j : Nat) (st : σ) :
    ∃ row st', cmRow rng degree pk plain0 plain1 i j n st = .ok (row, st') ∧ row.length = n ∧
      ∀ x, x < n → ∃ ct, row[x]? = some ct ∧ P (decide (i = j + x)) ct := by
  induction n generalizing j st with
  | zero => exact ⟨[], st, rfl, rfl, fun x hx => by omega⟩
  | succ n ih =>
    obtain ⟨ct, s1, h1, h2⟩ := hP (decide (i = j)) st
    simp only [decide_eq_true_eq] at h1
    obtain ⟨row, s2, h3, h4, h5⟩ := ih (j + 1) s1
    refine ⟨ct :: row, s2, ?_, by simp [h4], ?_⟩
    · unfold cmRow
      rw [bindOk _ _ _ _ _ h1, bindOk _ _ _ _ _ h3]
      rfl
    · intro x hx
      cases x with
      | zero => exact ⟨ct, rfl, h2⟩
      | succ x =>
        obtain ⟨c, e1, e2⟩ := h5 x (by omega)
        exact ⟨c, by simpa using e1, by rwa [show j + (x + 1) = j + 1 + x by omega]⟩

theorem cmRows_ok (rng : Rng σ) (degree : Nat) (pk : PublicKey) (plain0 plain1 : Plaintext) (P : Bool → Ciphertext → Prop)
    (hP : ∀ (b : Bool) (st : σ), ∃ ct st', encryptRandom rng degree pk (if b then plain1 else plain0) st = .ok (ct, st') ∧ P b ct)
    (width n i : Nat) (st : σ) :
    ∃ rows st', cmRows rng degree pk plain0 plain1 width i n st = .ok (rows, st') ∧ rows.length = n ∧
      ∀ x, x < n → ∃ row, rows[x]? = some row ∧ row.length = width ∧
        ∀ y, y < width → ∃ ct, row[y]? = some ct ∧ P (decide (i + x = y)) ct := by
  induction n generalizing i st with
  | zero => exact ⟨[], st, rfl, rfl, fun x hx => by omega⟩
  | succ n ih =>
    obtain ⟨row, s1, h1, h2, h3⟩ := cmRow_ok rng degree pk plain0 plain1 P hP i width 0 st
    obtain ⟨rows, s2, h4, h5, h6⟩ := ih (i + 1) s1
    refine ⟨row :: rows, s2, ?_, by simp [h5], ?_⟩
    · unfold cmRows
      rw [bindOk _ _ _ _ _ h1, bindOk _ _ _ _ _ h4]
      rfl
    · intro x hx
      cases x with
      | zero => exact ⟨row, rfl, h2, fun y hy => by simpa using h3 y hy⟩
      | succ x =>
        obtain ⟨r, e1, e2, e3⟩ := h6 x (by omega)
        exact ⟨r, by simpa using e1, e2, fun y hy => by
          rw [show i + (x + 1) = i + 1 + x by omega]; exact e3 y hy⟩

/-- C78: the column keys. After key generation, `gen_cm_keys` returns for every behaviour of the generator a square
matrix with one row per index; the entry at row `x` and column `y` decrypts to slots that are all 1 if `x = y` and all 0
otherwise, up to the fresh noise. (The values of the indices play no role.) -/
theorem C78_cm_keys (rng : Rng σ) (B : Int) (hB0 : 0 ≤ B) (hr : RngOk rng B) (k t : Nat) (hk : k = t + 1) (ms : List Nat)
    (h : Moduli k ms) (hnd : ms.Nodup) (hw : Option Nat) (hwt : ∀ w, hw = some w → w ≤ 2 ^ k)
    (rnd : ℝ → ℤ) (hrnd : ∀ x, |(rnd x : ℝ) - x| ≤ 1 / 2) (scale : ℝ) (hsc : 0 < scale) (st : σ) :
    ∃ pk sk st' s, keygenRandom rng (2 ^ k) ms hw st = .ok ((pk, sk), st') ∧ HoldsKey k ms s sk ∧
    ∀ (indices : List Nat) (st1 : σ), ∃ rows st2,
      genCmKeys rng rnd (2 ^ k) indices pk scale st1 = .ok (rows, st2) ∧ rows.length = indices.length ∧
      ∀ x, x < indices.length → ∃ row, rows[x]? = some row ∧ row.length = indices.length ∧
        ∀ y, y < indices.length → ∃ ct m, row[y]? = some ct ∧ Holds k ms s ct m ∧
          ∀ j, j < 2 ^ t → ‖slotsOf (2 ^ k) m scale j - (if x = y then 1 else 0)‖ ≤ 2 ^ k * ((1 / 2 + freshNoise k B) / scale) := by
  obtain ⟨pk, sk, st', s, h1, -, -, h4, h5, h6⟩ := C78_session rng B hB0 hr k t hk ms h hnd hw hwt rnd hrnd scale hsc st
  refine ⟨pk, sk, st', s, h1, h4, ?_⟩
  intro indices st1
  have hhalf : 2 ^ k / 2 = 2 ^ t := by rw [hk, pow_succ]; omega
  have key : ∀ z : ℂ, ‖z‖ ≤ 1 → ∃ pt, encode rnd (2 ^ k) ms scale (List.replicate (2 ^ t) z) = .ok pt ∧
      ∀ st, ∃ ct st2, encryptRandom rng (2 ^ k) pk pt st = .ok (ct, st2) ∧ ∃ m, Holds k ms s ct m ∧
        ∀ j, j < 2 ^ t → ‖slotsOf (2 ^ k) m scale j - z‖ ≤ 2 ^ k * ((1 / 2 + freshNoise k B) / scale) := by
    intro z hz
    have hall : ∀ st, _ := h6 ms.length (List.replicate (2 ^ t) z) (by simp) 1 (by norm_num)
      (by intro w hw; rw [List.eq_of_mem_replicate hw]; exact hz)
    rw [List.take_length] at hall
    obtain ⟨pt, -, -, -, e1, -⟩ := hall st1
    refine ⟨pt, e1, fun st => ?_⟩
    obtain ⟨pt', ct, st2, m, e1', e2, e3, -, e5, -⟩ := hall st
    obtain rfl := Except.ok.inj (e1.symm.trans e1')
    refine ⟨ct, st2, e2, m, e3, fun j hj => ?_⟩
    have := e5 j hj
    rwa [List.getD_eq_getElem _ _ (by simpa using hj), List.getElem_replicate] at this
  obtain ⟨p0, a0, b0⟩ := key 0 (by simp)
  obtain ⟨p1, a1, b1⟩ := key 1 (by simp)
  obtain ⟨rows, st2, r1, r2, r3⟩ := cmRows_ok rng (2 ^ k) pk p0 p1
    (fun b ct => ∃ m, Holds k ms s ct m ∧ ∀ j, j < 2 ^ t →
      ‖slotsOf (2 ^ k) m scale j - (if b then 1 else 0)‖ ≤ 2 ^ k * ((1 / 2 + freshNoise k B) / scale))
    (by
      intro b st
      cases b with
      | false => simpa using b0 st
      | true => simpa using b1 st) indices.length indices.length 0 st1
  refine ⟨rows, st2, ?_, r2, ?_⟩
  · unfold genCmKeys
    simp only [h5, hhalf]
    rw [bindOk _ _ _ _ _ (ofExceptOk _ _ a0 _), bindOk _ _ _ _ _ (ofExceptOk _ _ a1 _)]
    exact r1
  · intro x hx
    obtain ⟨row, c1, c2, c3⟩ := r3 x hx
    refine ⟨row, c1, c2, fun y hy => ?_⟩
    obtain ⟨ct, d1, m, d2, d3⟩ := c3 y hy
    refine ⟨ct, m, d1, d2, fun j hj => ?_⟩
    have := d3 j hj
    simpa using this

theorem range_map_getD (q p : List Nat) : (List.range q.length).map (fun i => (q ++ p).getD i 0) = q := by
  apply List.ext_getElem (by simp)
  intro i h1 h2
  rw [List.getElem_map, List.getElem_range, List.getD_append _ _ _ _ h2, List.getD_eq_getElem _ _ h2]

theorem range'_map_getD (q p : List Nat) :
    (List.range' q.length p.length).map (fun i => (q ++ p).getD i 0) = p := by
  apply List.ext_getElem (by simp)
  intro i h1 h2
  rw [List.getElem_map, List.getElem_range', List.getD_append_right _ _ _ _ (by omega),
    show q.length + 1 * i - q.length = i by omega, List.getD_eq_getElem _ _ h2]

theorem list_prod_dvd (l : List Nat) (hco : l.Pairwise Nat.Coprime) (z : ℤ) (h : ∀ d ∈ l, (d : ℤ) ∣ z) : (l.prod : ℤ) ∣ z := by
  induction l with
  | nil => simp
  | cons d l ih =>
    rw [List.pairwise_cons] at hco
    have h1 := Int.natCast_dvd.1 (h d (by simp))
    have h2 := Int.natCast_dvd.1 (ih hco.2 fun d hd => h d (by simp [hd]))
    rw [Int.natCast_dvd, List.prod_cons]
    exact Nat.Coprime.mul_dvd_of_dvd_of_dvd (Nat.coprime_list_prod_right_iff.2 hco.1) h1 h2

/-- One element of the lift: an integer polynomial with coefficients in `[0, #q * Q)` that the limbs over `q ++ p` hold. -/
theorem liftElement_spec (kr kc : Nat) (q p : List Nat) (h : Basis kr kc q p) (T : Nat → NttBat.Tables)
    (hT : TablesOf kr kc (q ++ p) T) (bc : BcKernel) (ci : Nat) (hbc : bc[ci]? = some (q, p)) (data : Mat)
    (hd : Reduced (kr + kc) q data) :
    ∃ (out : Mat) (D : Nat → Int),
      liftElement q p bc ci (2 ^ kr) (2 ^ kc) ((List.range q.length).map T) ((List.range' q.length p.length).map T) data = .ok out ∧
      (∀ i, i < q.length → out i = data i) ∧ Reduced (kr + kc) (q ++ p) out ∧
      (∀ t, t < 2 ^ (kr + kc) → 0 ≤ D t ∧ D t < (q.length * q.prod : Nat)) ∧
      ∀ i, i < (q ++ p).length → ringOf (kr + kc) ((q ++ p).getD i 0) (out i) = polyOf (kr + kc) ((q ++ p).getD i 0) D := by
  have hql : 0 < q.length := List.length_pos_of_ne_nil h.neQ
  have hTq : ∀ i, i < q.length → ((List.range q.length).map T).getD i Rescale.noTables = T i := by
    intro i hi
    rw [List.getD_eq_getElem _ _ (by simpa using hi), List.getElem_map, List.getElem_range]
  have hTp : ∀ i, i < p.length → ((List.range' q.length p.length).map T).getD i Rescale.noTables = T (q.length + i) := by
    intro i hi
    rw [List.getD_eq_getElem _ _ (by simpa using hi), List.getElem_map, List.getElem_range', Nat.one_mul]
  obtain ⟨conv, D, c1, c2, c3, c4⟩ := convert_spec h T hT (List.range q.length) (List.range' q.length p.length)
    (by simpa using h.neQ) List.nodup_range (by intro i hi; have := List.mem_range.1 hi; simp; omega)
    (by intro i hi; have := List.mem_range'_1.1 hi; simp; omega) data
    (by
      intro i hi t ht
      have hi := List.mem_range.1 hi
      rw [List.getD_append _ _ _ _ hi]
      exact hd i hi t ht) q p (range_map_getD q p).symm (range'_map_getD q p).symm
    (fun i => NttBat.inttFlat (2 ^ kr) (2 ^ kc) (q.getD i 0) (((List.range q.length).map T).getD i Rescale.noTables) (data i))
    (by
      intro j hj
      have hj : j < q.length := by simpa using hj
      have e : (List.range q.length).getD j 0 = j := by rw [List.getD_eq_getElem _ _ (by simpa using hj), List.getElem_range]
      beta_reduce
      rw [e, hTq j hj, List.getD_append _ _ _ _ hj])
  have e' : ∀ j, j < p.length → (List.range' q.length p.length).getD j 0 = q.length + j := by
    intro j hj
    rw [List.getD_eq_getElem _ _ (by simpa using hj), List.getElem_range', Nat.one_mul]
  have hpg : ∀ j, (q ++ p).getD (q.length + j) 0 = p.getD j 0 := by
    intro j
    rw [List.getD_append_right _ _ _ _ (by omega), show q.length + j - q.length = j by omega]
  refine ⟨fun i => if i < q.length then data i else
      NttBat.nttFlat (2 ^ kr) (2 ^ kc) (p.getD (i - q.length) 0)
        (((List.range' q.length p.length).map T).getD (i - q.length) Rescale.noTables) (conv (i - q.length)), D, ?_, ?_, ?_, ?_, ?_⟩
  · unfold liftElement
    rw [if_neg (by simp), hbc]
    simp only [ne_eq, not_true_eq_false, or_self, if_false]
    rw [c1]
    rfl
  · intro i hi
    simp only [if_pos hi]
  · intro i hi t ht
    by_cases hq : i < q.length
    · simp only [if_pos hq]
      rw [List.getD_append _ _ _ _ hq]
      exact hd i hq t ht
    · obtain ⟨j, rfl⟩ := Nat.exists_eq_add_of_le (Nat.not_lt.1 hq)
      have hj : j < p.length := by simpa using hi
      simp only [if_neg hq, Nat.add_sub_cancel_left]
      rw [hpg]
      have := (c4 j (by simpa using hj)).1 t ht
      rwa [e' j hj, hpg, ← hTp j hj] at this
  · intro t ht
    have := c2 t ht
    rwa [List.length_range] at this
  · intro i hi
    by_cases hq : i < q.length
    · simp only [if_pos hq]
      exact c3 i (List.mem_range.2 hq)
    · obtain ⟨j, rfl⟩ := Nat.exists_eq_add_of_le (Nat.not_lt.1 hq)
      have hj : j < p.length := by simpa using hi
      simp only [if_neg hq, Nat.add_sub_cancel_left]
      have := (c4 j (by simpa using hj)).2
      rw [e' j hj, hpg, ← hTp j hj] at this
      rw [hpg]
      exact this

/-- C78: `lift_ciphertext` raises the modulus of a ciphertext from `Q` to `PQ`. The limbs over `q` are unchanged, and under
the same key the lifted ciphertext holds a polynomial `M` congruent to the message modulo `Q`, with coefficients of
absolute value at most `#q Q (1 + N ‖s‖)`. -/
theorem C78_lift (kr kc : Nat) (q p : List Nat) (h : Basis kr kc q p) (T : Nat → NttBat.Tables)
    (hT : TablesOf kr kc (q ++ p) T) (bc : BcKernel) (ci : Nat) (hbc : bc[ci]? = some (q, p)) (s : Nat → Int) (S : Int)
    (hS0 : 0 ≤ S) (hS : ∀ x, x < 2 ^ (kr + kc) → |s x| ≤ S) (ct : Ciphertext) (m : Nat → Int) (hct : Holds (kr + kc) q s ct m) :
    ∃ (ct' : Ciphertext) (M : Nat → Int),
      liftCiphertext ct bc ci p ((List.range q.length).map T) ((List.range' q.length p.length).map T) (2 ^ kr) (2 ^ kc) = .ok ct' ∧
      (∀ i, i < q.length → ct'.c0 i = ct.c0 i ∧ ct'.c1 i = ct.c1 i) ∧ Holds (kr + kc) (q ++ p) s ct' M ∧
      (∀ x, x < 2 ^ (kr + kc) → (q.prod : ℤ) ∣ M x - m x) ∧
      ∀ x, x < 2 ^ (kr + kc) → |M x| ≤ (q.length * q.prod : Nat) * (1 + 2 ^ (kr + kc) * S) := by
  obtain ⟨o0, D0, a1, a2, a3, a4, a5⟩ := liftElement_spec kr kc q p h T hT bc ci hbc ct.c0 hct.red0
  obtain ⟨o1, D1, b1, b2, b3, b4, b5⟩ := liftElement_spec kr kc q p h T hT bc ci hbc ct.c1 hct.red1
  have hH : Holds (kr + kc) (q ++ p) s { c0 := o0, c1 := o1, moduli := q ++ p } (fun x => D0 x + imul (kr + kc) D1 s x) := by
    refine ⟨rfl, a3, b3, fun i hi => ?_⟩
    simp only
    rw [polyOf_add, polyOf_imul, a5 i hi, b5 i hi]
  refine ⟨{ c0 := o0, c1 := o1, moduli := q ++ p }, fun x => D0 x + imul (kr + kc) D1 s x, ?_, fun i hi => ⟨a2 i hi, b2 i hi⟩, hH, ?_, ?_⟩
  · unfold liftCiphertext
    rw [hct.moduli, a1, b1]
    rfl
  · have hnd : q.Nodup := (List.nodup_append.1 h.nodup).1
    have hlim : ∀ i, i < q.length → ∀ x, x < 2 ^ (kr + kc) →
        ((q.getD i 0 : ℕ) : ℤ) ∣ (D0 x + imul (kr + kc) D1 s x) - m x := by
      intro i hi x hx
      have e1 := hH.eq i (by simp; omega)
      have e2 := hct.eq i hi
      simp only at e1
      rw [List.getD_append _ _ _ _ hi, a2 i hi, b2 i hi, e2] at e1
      exact Int.ModEq.dvd (polyOf_inj e1 x hx)
    intro x hx
    refine list_prod_dvd q (moduli_coprime h.left hnd) _ ?_
    intro d hd
    obtain ⟨i, hi, rfl⟩ := List.mem_iff_getElem.1 hd
    have := hlim i hi x hx
    rwa [List.getD_eq_getElem _ _ hi] at this
  · intro x hx
    have hD0 := a4 x hx
    have hI := imul_abs (kr + kc) D1 s (q.length * q.prod : Nat) S (by positivity) hS0
      (fun y hy => by rw [abs_of_nonneg (b4 y hy).1]; exact (b4 y hy).2.le) hS x
    refine (abs_add_le _ _).trans ?_
    rw [abs_of_nonneg hD0.1]
    refine (add_le_add hD0.2.le hI).trans (le_of_eq ?_)
    ring

/-- A session with a generator that always returns the error -3: key, column keys, and a lifted encryption exist. -/
example (rnd : ℝ → ℤ) (hrnd : ∀ x, |(rnd x : ℝ) - x| ≤ 1 / 2) : ∃ pk sk s, keygenRandom (constRng (-3)) (2 ^ 1) [40961, 65537] (some 1) () =
    .ok ((pk, sk), ()) ∧ ((Finset.range (2 ^ 1)).filter (fun p => s p = 1)).card = 1 ∧ ∃ ct m,
    Holds 1 [40961, 65537] s ct m ∧ ‖slotsOf (2 ^ 1) m (2 ^ 20) 0 - 7‖ ≤ 2 ^ 1 * ((1 / 2 + freshNoise 1 3) / 2 ^ 20) ∧
    ∃ ct' M, liftCiphertext ct [([40961, 65537], [12289])] 0 [12289]
      ((List.range 2).map fun i => tablesFor 0 1 (([40961, 65537] ++ [12289] : List Nat).getD i 0))
      ((List.range' 2 1).map fun i => tablesFor 0 1 (([40961, 65537] ++ [12289] : List Nat).getD i 0)) (2 ^ 0) (2 ^ 1) = .ok ct' ∧
      Holds 1 [40961, 65537, 12289] s ct' M ∧ ∀ x, x < 2 → ((([40961, 65537] : List Nat).prod : Nat) : ℤ) ∣ M x - m x := by
  obtain ⟨hb, -⟩ := basis_rotation
  obtain ⟨pk, sk, st', s, h1, h2, h3, -, -, h6⟩ := C78_session (constRng (-3)) 3 (by norm_num) (constRng_ok (-3)) 1 0 rfl
    [40961, 65537] hb.left (by decide) (some 1) (by simp) rnd hrnd (2 ^ 20) (by positivity) ()
  obtain ⟨pt, ct, st2, m, -, -, e3, -, e5, -⟩ := h6 2 [7] (by simp) 7 (by norm_num) (by simp) ()
  obtain ⟨ct', M, l1, -, l3, l4, -⟩ := C78_lift 0 1 [40961, 65537] [12289] hb _ (tablesOf_basis hb) [([40961, 65537], [12289])] 0 rfl
    s 1 (by norm_num) (fun x _ => binary_abs h2 x) ct m e3
  exact ⟨pk, sk, s, h1, h3 1 rfl, ct, m, e3, by simpa using e5 0 (by norm_num), ct', M, l1, l3, l4⟩

end Verif.Props
