import Verif.Props.Bootstrap
import Verif.Props.Lut
import Verif.Model.JaxiteBool

/-!
# Property C25: Boolean gates and circuits
-/

namespace Verif.Props
open Verif.Rlwe Verif.Nega Verif.Arith Verif.Encoding Verif.TestPolynomial Verif.Bootstrap Verif.Rgsw
open Verif.KeySwitch Verif.JaxiteBool Verif.Lut

/-- The server key was made by `ServerKeySet(...)` for binary keys, with error samples at most `Eb`
(bootstrapping key) and `Ek` (key-switching key) and arbitrary masks. -/
def KeysOk (be : Backend) {d k logN : Nat} {params : Parameters} (sks : ServerKeySet d k logN params)
    (lz : Fin d → Bool) (s : Fin k → Fin (2 ^ logN) → Bool) (Eb Ek : Int) : Prop :=
  ∃ (a : Nat → Fin (k + 1) → Fin params.bsDecomp.levelCount → Fin k → Fin (2 ^ logN) → W)
    (e : Nat → Fin (k + 1) → Fin params.bsDecomp.levelCount → Int)
    (ka : Fin (k * 2 ^ logN) → Fin params.ksDecomp.levelCount → Fin d → W)
    (ke : Fin (k * 2 ^ logN) → Fin params.ksDecomp.levelCount → Int),
    (∀ i p l, |e i p l| ≤ Eb) ∧ (∀ i l, |ke i l| ≤ Ek) ∧
    mkServerKeySet be params ⟨⟨32, fun i => BitVec.ofInt 32 (bit (lz i))⟩,
      ⟨32, fun i c => BitVec.ofInt 32 (bit (s i c))⟩⟩ a (fun i p l => BitVec.ofInt 32 (e i p l)) ka
      (fun i l => BitVec.ofInt 32 (ke i l)) = .ok sks

/-- Admissible parameters: degree `2^logN` with `4 ≤ logN ≤ 30`, well-formed gadgets. -/
structure ParamsOk (be : Backend) (k logN : Nat) (params : Parameters) : Prop where
  lo : 4 ≤ logN
  hi : logN ≤ 30
  bs : GadgetOk params.bsDecomp
  kernel : KernelOk be k (2 ^ logN) params.bsDecomp
  ks : GadgetOk params.ksDecomp

/-- C25, the common core: bootstrapping with the test polynomial of a table of at most three inputs maps
a ciphertext holding `v` to one holding bit `v` of the table. -/
theorem C25_table_lookup (be : Backend) {d k logN : Nat} {params : Parameters}
    (sks : ServerKeySet d k logN params) (lz : Fin d → Bool) (s : Fin k → Fin (2 ^ logN) → Bool) (Eb Ek : Int)
    (hP : ParamsOk be k logN params) (hK : KeysOk be sks lz s Eb Ek)
    (l : LookUpTable) (hl : l.numInputs ≤ 3) (ct : Fin (d + 1) → W) (v : Nat) (hv : v < 2 ^ l.numInputs)
    (noise : Int)
    (hct : lwePhase ct (fun i => BitVec.ofInt 32 (bit (lz i))) = BitVec.ofInt 32 (v * 2 ^ 28 + noise))
    (hnoise : 2 * |noise| + 2 ^ (31 - logN) * (keyWeight lz + 1) < 2 ^ 28) :
    ∃ poly out noise', asRlweTestPolynomial be k logN l = .ok poly ∧
      callBootstrap be sks ct poly = .ok out ∧
      HoldsBit out (fun i => BitVec.ofInt 32 (bit (lz i))) (l.truthTable.testBit v) noise' ∧
      |noise'| ≤ bootstrapBound true d k (2 ^ logN) params.bsDecomp params.ksDecomp Eb Ek := by
  obtain ⟨a, e, ka, ke, he, hke, hmk⟩ := hK
  obtain ⟨c, hc, hclen, hcget⟩ := (C03_padded l).2 hl
  have hv8 : v < 8 := lt_of_lt_of_le hv
    (le_trans (Nat.pow_le_pow_right (by norm_num) hl) (by norm_num : 2 ^ 3 ≤ 8))
  set table : List Int := c.map (fun c : Nat => (c : Int)) with htab
  have htlen : table.length = 2 ^ boolParams.messageBitLength := by
    rw [htab, List.length_map, hclen]; rfl
  have htv : ∀ x ∈ table, 0 ≤ x ∧ x < 2 ^ (boolParams.paddingBitLength + boolParams.messageBitLength) := by
    intro x hx
    rw [htab, List.mem_map] at hx
    obtain ⟨y, hy, rfl⟩ := hx
    obtain ⟨i, hi, rfl⟩ := List.mem_iff_getElem.1 hy
    have := hcget i (by omega)
    rw [List.getElem?_eq_getElem hi] at this
    have h2 := Option.some.inj this
    refine ⟨by omega, ?_⟩
    have h3 : c[i] ≤ 2 := by rw [h2]; split <;> omega
    have h4 : ((2 : Int) ^ (boolParams.paddingBitLength + boolParams.messageBitLength)) = 16 := by decide
    rw [h4]; omega
  obtain ⟨bsk, hbsk⟩ : ∃ bsk, genBootstrappingKey be ⟨32, fun i => BitVec.ofInt 32 (bit (lz i))⟩
      ⟨32, fun i c => BitVec.ofInt 32 (bit (s i c))⟩ params.bsDecomp a
      (fun i p l => BitVec.ofInt 32 (e i p l)) true false = .ok bsk := by
    unfold mkServerKeySet at hmk
    simp only [bind, Except.bind] at hmk
    split at hmk
    · cases hmk
    · exact ⟨_, by assumption⟩
  unfold mkServerKeySet at hmk
  simp only [hbsk, bind, Except.bind, pure, Except.pure] at hmk
  have hsks := (Except.ok.inj hmk).symm
  obtain ⟨tp, htl, out, noise', htp, hout, hph, hb⟩ := C24_bootstrap be hP.hi boolParams boolParams_valid rfl rfl
    (show 3 < logN by have := hP.lo; omega) params.bsDecomp params.ksDecomp hP.bs hP.kernel hP.ks lz s a e Eb he
    ka ke Ek hke true false bsk hbsk table htlen htv ct v hv8 noise hct hnoise
  refine ⟨trivialEncryption be k (fun i : Fin (2 ^ logN) => tp[i.val]'(by omega)) 32, out, noise', ?_, ?_, ?_, hb⟩
  · unfold asRlweTestPolynomial
    rw [hc]
    simp only [bind, Except.bind]
    rw [← htab, htp]
    simp only [pure, Except.pure]
    congr 2
    funext i
    exact List.getD_eq_getElem _ _ _
  · rw [hsks]
    exact hout
  · unfold HoldsBit
    rw [hph]
    congr 2
    have h1 := hcget v hv8
    rw [if_pos hv] at h1
    have h2 : table[v]'(by rw [htab, List.length_map]; omega) = ((l.truthTable / 2 ^ v % 2 : Nat) : Int) := by
      simp only [htab, List.getElem_map]
      rw [List.getElem?_eq_getElem (by omega)] at h1
      rw [Option.some.inj h1]
    rw [h2, Nat.testBit_eq_decide_div_mod_eq]
    have h3 : l.truthTable / 2 ^ v % 2 = 0 ∨ l.truthTable / 2 ^ v % 2 = 1 := by omega
    have h4 : boolParams.errorBitLength = 28 := rfl
    rw [h4]
    rcases h3 with h | h <;> rw [h] <;> simp

/-- Specification of the plain evaluation of a program; `none` for programs that use an unknown gate name
or a one-input table outside `0..3`. -/
def evalPlain (inputs : Nat → Bool) : Circuit → Option Bool
  | .input i => some (inputs i)
  | .const b => some b
  | .not c => (evalPlain inputs c).map (!·)
  | .gate name l r => do
    let f ← gateFunction.lookup name
    return f (← evalPlain inputs l) (← evalPlain inputs r)
  | .lut1 t a => do
    let x ← evalPlain inputs a
    if 0 ≤ t ∧ t < 4 then some (t.toNat.testBit x.toNat) else none
  | .lut2 t a b => do
    let x ← evalPlain inputs a
    let y ← evalPlain inputs b
    return t.testBit (2 * y.toNat + x.toNat)
  | .lut3 t a b c => do
    let x ← evalPlain inputs a
    let y ← evalPlain inputs b
    let z ← evalPlain inputs c
    return t.testBit (4 * z.toNat + 2 * y.toNat + x.toNat)
  | .cmux v1 v0 ctrl => do
    let x ← evalPlain inputs v1
    let y ← evalPlain inputs v0
    let z ← evalPlain inputs ctrl
    return if z then x else y

theorem lwePhase_lin {n : Nat} (x y z : Fin (n + 1) → W) (s : Fin n → W) (c1 c2 c3 : W) :
    lwePhase (fun i => c1 * x i + c2 * y i + c3 * z i) s =
      c1 * lwePhase x s + c2 * lwePhase y s + c3 * lwePhase z s := by
  unfold lwePhase
  have : ∑ i : Fin n, (c1 * x i.castSucc + c2 * y i.castSucc + c3 * z i.castSucc) * s i =
      c1 * ∑ i : Fin n, x i.castSucc * s i + c2 * ∑ i : Fin n, y i.castSucc * s i +
        c3 * ∑ i : Fin n, z i.castSucc * s i := by
    rw [Finset.mul_sum, Finset.mul_sum, Finset.mul_sum, ← Finset.sum_add_distrib, ← Finset.sum_add_distrib]
    refine Finset.sum_congr rfl (fun i _ => ?_)
    ring
  rw [this]
  ring

/-- Phase of `4 z + 2 y + x`. -/
theorem phase_comb3 {n : Nat} (x y z : Fin (n + 1) → W) (s : Fin n → W) (bx by' bz : Bool) (ex ey ez : Int)
    (hx : HoldsBit x s bx ex) (hy : HoldsBit y s by' ey) (hz : HoldsBit z s bz ez) :
    lwePhase (fun i => 4 * z i + 2 * y i + x i) s =
      BitVec.ofInt 32 (((4 * bz.toNat + 2 * by'.toNat + bx.toNat : Nat) : Int) * 2 ^ 28 + (4 * ez + 2 * ey + ex)) := by
  have h := lwePhase_lin z y x s 4 2 1
  simp only [one_mul] at h
  unfold HoldsBit at hx hy hz
  rw [h, hx, hy, hz]
  show (4 : W) * ((_ : Int) : W) + 2 * ((_ : Int) : W) + ((_ : Int) : W) = ((_ : Int) : W)
  have e4 : (4 : W) = ((4 : Int) : W) := rfl
  have e2 : (2 : W) = ((2 : Int) : W) := rfl
  rw [e4, e2, ← Int.cast_mul, ← Int.cast_mul, ← Int.cast_add, ← Int.cast_add]
  congr 1
  cases bx <;> cases by' <;> cases bz <;> simp <;> ring

theorem phase_comb2 {n : Nat} (x y : Fin (n + 1) → W) (s : Fin n → W) (bx by' : Bool) (ex ey : Int)
    (hx : HoldsBit x s bx ex) (hy : HoldsBit y s by' ey) :
    lwePhase (fun i => 2 * y i + x i) s =
      BitVec.ofInt 32 (((2 * by'.toNat + bx.toNat : Nat) : Int) * 2 ^ 28 + (2 * ey + ex)) := by
  have h := lwePhase_lin y x x s 2 1 0
  simp only [one_mul, zero_mul, add_zero] at h
  unfold HoldsBit at hx hy
  rw [h, hx, hy]
  show (2 : W) * ((_ : Int) : W) + ((_ : Int) : W) = ((_ : Int) : W)
  have e2 : (2 : W) = ((2 : Int) : W) := rfl
  rw [e2, ← Int.cast_mul, ← Int.cast_add]
  congr 1
  cases bx <;> cases by' <;> simp <;> ring

/-- C25, circuits: let every input ciphertext hold its bit with noise at most `E`, where `E` is at least
the bootstrap noise, and let `14 E + 2^(31 - log N) (key weight + 1) < 2^28`. Then every program over the API
that names existing gates runs without exception, and its output holds the value of the program on the
input bits with noise at most `E` (so any number of gates can be chained). -/
theorem C25_circuit (be : Backend) {d k logN : Nat} {params : Parameters}
    (sks : ServerKeySet d k logN params) (lz : Fin d → Bool) (s : Fin k → Fin (2 ^ logN) → Bool)
    (Eb Ek E : Int) (hP : ParamsOk be k logN params) (hK : KeysOk be sks lz s Eb Ek)
    (hE : bootstrapBound true d k (2 ^ logN) params.bsDecomp params.ksDecomp Eb Ek ≤ E) (hE0 : 0 ≤ E)
    (hroom : 2 * (7 * E) + 2 ^ (31 - logN) * (keyWeight lz + 1) < 2 ^ 28)
    (cts : Nat → Fin (d + 1) → W) (bits : Nat → Bool)
    (hin : ∀ i, ∃ e, HoldsBit (cts i) (fun i => BitVec.ofInt 32 (bit (lz i))) (bits i) e ∧ |e| ≤ E)
    (c : Circuit) (b : Bool) (hb : evalPlain bits c = some b) :
    ∃ out e, c.run be sks cts = .ok out ∧
      HoldsBit out (fun i => BitVec.ofInt 32 (bit (lz i))) b e ∧ |e| ≤ E := by
  have const_ok : ∀ b : Bool, ∃ out e, Lwe.constant b d = .ok out ∧
      HoldsBit out (fun i => BitVec.ofInt 32 (bit (lz i))) b e ∧ |e| ≤ E := by
    intro b
    have henc : encode (if b then 1 else 0) boolParams = .ok (BitVec.ofInt 32 ((if b then 1 else 0) * 2 ^ 28 + 0)) := by
      cases b <;> decide
    refine ⟨Lwe.noiselessEmbedding (BitVec.ofInt 32 ((if b then 1 else 0) * 2 ^ 28 + 0)) d, 0, ?_, ?_, by simpa⟩
    · unfold Lwe.constant Lwe.noiselessBool
      simp only [henc, bind, Except.bind, pure, Except.pure]
    · unfold HoldsBit
      rw [← decryptWithoutDenoising_eq _ _ 32 le_rfl, C08_noiseless]
  induction c generalizing b with
  | input i =>
    obtain ⟨e, h1, h2⟩ := hin i
    simp only [evalPlain, Option.some.injEq] at hb
    exact ⟨cts i, e, rfl, hb ▸ h1, h2⟩
  | const b' =>
    simp only [evalPlain, Option.some.injEq] at hb
    exact hb ▸ const_ok b'
  | not c ih =>
    simp only [evalPlain, Option.map_eq_some_iff] at hb
    obtain ⟨x, hx, rfl⟩ := hb
    obtain ⟨o, e, h1, h2, h3⟩ := ih x hx
    obtain ⟨r, hr, hh⟩ := C09_not o _ x e h2
    refine ⟨r, -e, ?_, hh, by rwa [abs_neg]⟩
    simp only [Circuit.run, h1, bind, Except.bind, hr]
  | gate name l r ihl ihr =>
    simp only [evalPlain, Option.bind_eq_bind, Option.bind_eq_some_iff, Option.pure_def, Option.some.injEq] at hb
    obtain ⟨f, hf, x, hx, y, hy, rfl⟩ := hb
    obtain ⟨ol, el, l1, l2, l3⟩ := ihl x hx
    obtain ⟨or', er, r1, r2, r3⟩ := ihr y hy
    have hmem : (name, f) ∈ gateFunction := by
      obtain ⟨l1, l2, hl, _⟩ := List.lookup_eq_some_iff.1 hf
      rw [hl]; simp
    obtain ⟨t, ht, htn, htv⟩ := C03_named_gates name f hmem
    have htv' : t.truthTable.testBit (2 * x.toNat + y.toNat) = f x y := by
      have h1 := htv x y
      have h2 : t = ⟨2, t.truthTable⟩ := by cases t; simp only at htn; rw [htn]
      rw [h2, C03_truth_table_bits, List.getElem?_map, List.getElem?_range (by cases x <;> cases y <;> decide)] at h1
      simp only [Option.map_some, Option.some.injEq] at h1
      rw [Nat.testBit_eq_decide_div_mod_eq, h1]
      cases f x y <;> rfl
    obtain ⟨poly, out, e', p1, p2, p3, p4⟩ := C25_table_lookup be sks lz s Eb Ek hP hK ⟨2, t.truthTable⟩ (show 2 ≤ 3 by decide)
      (fun i => 2 * ol i + or' i) (2 * x.toNat + y.toNat) (show _ < 2 ^ 2 by cases x <;> cases y <;> decide) (2 * el + er)
      (phase_comb2 or' ol _ y x er el r2 l2) (by
        have := abs_add_le (2 * el) er
        rw [abs_mul] at this
        have e2 : |(2 : Int)| = 2 := rfl
        rw [e2] at this
        linarith)
    refine ⟨out, e', ?_, ?_, p4.trans hE⟩
    · simp only [Circuit.run, l1, r1, bind, Except.bind, gate2, JaxiteBool.lutByName, ht, p1, p2]
    · rw [← htv']; exact p3
  | lut1 t a ih =>
    simp only [evalPlain, Option.bind_eq_bind, Option.bind_eq_some_iff] at hb
    obtain ⟨x, hx, hb⟩ := hb
    obtain ⟨o, e, h1, h2, h3⟩ := ih x hx
    split at hb
    · rename_i ht
      have hb' := Option.some.inj hb
      have : t = 0 ∨ t = 1 ∨ t = 2 ∨ t = 3 := by omega
      simp only [Circuit.run, h1, bind, Except.bind]
      rcases this with rfl | rfl | rfl | rfl
      · have : b = false := by rw [← hb']; cases x <;> rfl
        subst this
        exact const_ok false
      · have : b = !x := by rw [← hb']; cases x <;> rfl
        subst this
        obtain ⟨r, hr, hh⟩ := C09_not o _ x e h2
        refine ⟨r, -e, ?_, hh, by rwa [abs_neg]⟩
        simp [Lwe.lut1, hr]
      · have : b = x := by rw [← hb']; cases x <;> rfl
        subst this
        exact ⟨o, e, by simp [Lwe.lut1], h2, h3⟩
      · have : b = true := by rw [← hb']; cases x <;> rfl
        subst this
        exact const_ok true
    · cases hb
  | lut2 t a b' iha ihb =>
    simp only [evalPlain, Option.bind_eq_bind, Option.bind_eq_some_iff, Option.pure_def, Option.some.injEq] at hb
    obtain ⟨x, hx, y, hy, rfl⟩ := hb
    obtain ⟨oa, ea, a1, a2, a3⟩ := iha x hx
    obtain ⟨ob, eb, b1, b2, b3⟩ := ihb y hy
    obtain ⟨poly, out, e', p1, p2, p3, p4⟩ := C25_table_lookup be sks lz s Eb Ek hP hK ⟨2, t⟩ (show 2 ≤ 3 by decide)
      (fun i => 2 * ob i + oa i) (2 * y.toNat + x.toNat) (show _ < 2 ^ 2 by cases x <;> cases y <;> decide) (2 * eb + ea)
      (phase_comb2 oa ob _ x y ea eb a2 b2) (by
        have := abs_add_le (2 * eb) ea
        rw [abs_mul] at this
        have e2 : |(2 : Int)| = 2 := rfl
        rw [e2] at this
        linarith)
    refine ⟨out, e', ?_, p3, p4.trans hE⟩
    simp only [Circuit.run, a1, b1, bind, Except.bind, JaxiteBool.lut2, JaxiteBool.lutPoly, p1, p2]
  | lut3 t a b' c iha ihb ihc =>
    simp only [evalPlain, Option.bind_eq_bind, Option.bind_eq_some_iff, Option.pure_def, Option.some.injEq] at hb
    obtain ⟨x, hx, y, hy, z, hz, rfl⟩ := hb
    obtain ⟨oa, ea, a1, a2, a3⟩ := iha x hx
    obtain ⟨ob, eb, b1, b2, b3⟩ := ihb y hy
    obtain ⟨oc, ec, c1, c2, c3⟩ := ihc z hz
    obtain ⟨poly, out, e', p1, p2, p3, p4⟩ := C25_table_lookup be sks lz s Eb Ek hP hK ⟨3, t⟩ (show 3 ≤ 3 by decide)
      (fun i => 4 * oc i + 2 * ob i + oa i) (4 * z.toNat + 2 * y.toNat + x.toNat)
      (show _ < 2 ^ 3 by cases x <;> cases y <;> cases z <;> decide) (4 * ec + 2 * eb + ea)
      (phase_comb3 oa ob oc _ x y z ea eb ec a2 b2 c2) (by
        have h1 := abs_add_le (4 * ec + 2 * eb) ea
        have h2 := abs_add_le (4 * ec) (2 * eb)
        rw [abs_mul, abs_mul] at h2
        have e2 : |(2 : Int)| = 2 := rfl
        have e4 : |(4 : Int)| = 4 := rfl
        rw [e2, e4] at h2
        linarith)
    refine ⟨out, e', ?_, p3, p4.trans hE⟩
    simp only [Circuit.run, a1, b1, c1, bind, Except.bind, JaxiteBool.lut3, JaxiteBool.lutPoly, p1, p2]
  | cmux v1 v0 ctrl ih1 ih0 ihc =>
    simp only [evalPlain, Option.bind_eq_bind, Option.bind_eq_some_iff, Option.pure_def, Option.some.injEq] at hb
    obtain ⟨x, hx, y, hy, z, hz, rfl⟩ := hb
    obtain ⟨o1, e1, a1, a2, a3⟩ := ih1 x hx
    obtain ⟨o0, e0, b1, b2, b3⟩ := ih0 y hy
    obtain ⟨oc, ec, c1, c2, c3⟩ := ihc z hz
    obtain ⟨poly, out, e', p1, p2, p3, p4⟩ := C25_table_lookup be sks lz s Eb Ek hP hK ⟨3, 0xE4⟩ (by decide)
      (fun i => 4 * o1 i + 2 * o0 i + oc i) (4 * x.toNat + 2 * y.toNat + z.toNat)
      (show _ < 2 ^ 3 by cases x <;> cases y <;> cases z <;> decide) (4 * e1 + 2 * e0 + ec)
      (phase_comb3 oc o0 o1 _ z y x ec e0 e1 c2 b2 a2) (by
        have h1 := abs_add_le (4 * e1 + 2 * e0) ec
        have h2 := abs_add_le (4 * e1) (2 * e0)
        rw [abs_mul, abs_mul] at h2
        have e2 : |(2 : Int)| = 2 := rfl
        have e4 : |(4 : Int)| = 4 := rfl
        rw [e2, e4] at h2
        linarith)
    have hname : JaxiteBool.lutByName "cmux" = .ok ⟨2, 0xE4⟩ := by decide
    refine ⟨out, e', ?_, ?_, p4.trans hE⟩
    · simp only [Circuit.run, a1, b1, c1, bind, Except.bind, JaxiteBool.cmux, hname, JaxiteBool.lut3,
        JaxiteBool.lutPoly, p1, p2]
    · have : Nat.testBit 0xE4 (4 * x.toNat + 2 * y.toNat + z.toNat) = if z then x else y := by
        cases x <;> cases y <;> cases z <;> decide
      rw [← this]; exact p3

/-- C25: the output of every such program decrypts to the program's value. -/
theorem C25_circuit_decrypts (be : Backend) {d k logN : Nat} {params : Parameters}
    (sks : ServerKeySet d k logN params) (lz : Fin d → Bool) (s : Fin k → Fin (2 ^ logN) → Bool)
    (Eb Ek E : Int) (hP : ParamsOk be k logN params) (hK : KeysOk be sks lz s Eb Ek)
    (hE : bootstrapBound true d k (2 ^ logN) params.bsDecomp params.ksDecomp Eb Ek ≤ E) (hE0 : 0 ≤ E)
    (hroom : 2 * (7 * E) + 2 ^ (31 - logN) * (keyWeight lz + 1) < 2 ^ 28)
    (cts : Nat → Fin (d + 1) → W) (bits : Nat → Bool)
    (masks : Nat → Fin d → W) (errs : Nat → Int) (herrs : ∀ i, |errs i| ≤ E)
    (henc : ∀ i, Lwe.boolEncrypt (bits i) ⟨32, fun i => BitVec.ofInt 32 (bit (lz i))⟩ (masks i)
      (BitVec.ofInt 32 (errs i)) = .ok (cts i))
    (c : Circuit) (b : Bool) (hb : evalPlain bits c = some b) :
    (do let out ← c.run be sks cts
        Lwe.boolDecrypt out ⟨32, fun i => BitVec.ofInt 32 (bit (lz i))⟩) = .ok b := by
  have hin : ∀ i, ∃ e, HoldsBit (cts i) (fun i => BitVec.ofInt 32 (bit (lz i))) (bits i) e ∧ |e| ≤ E := by
    intro i
    refine ⟨errs i, ?_, herrs i⟩
    have hencode : encode (if bits i then 1 else 0) boolParams =
        .ok (BitVec.ofInt 32 ((if bits i then 1 else 0) * 2 ^ 28)) := by
      cases bits i <;> decide
    have h := henc i
    unfold Lwe.boolEncrypt at h
    simp only [hencode, bind, Except.bind, pure, Except.pure, Except.ok.injEq] at h
    rw [← h]
    unfold HoldsBit
    rw [lwePhase_jitEncrypt]
    exact (Int.cast_add _ _).symm
  obtain ⟨out, e, h1, h2, h3⟩ := C25_circuit be sks lz s Eb Ek E hP hK hE hE0 hroom cts bits hin c b hb
  rw [h1]
  have hw : (0 : Int) ≤ 2 ^ (31 - logN) * (keyWeight lz + 1) := by positivity
  have h4 := abs_le.1 h3
  exact C08_bool_decrypt out _ b e h2 (by norm_num at hroom ⊢; linarith) (by norm_num at hroom ⊢; linarith)

/-- The hypotheses of the circuit theorem `C25_circuit` (and of `C25_table_lookup`, `C25_pmap`) are met by the library's test parameters
(`TEST_SCHEME_PARAMS`: LWE dimension 4, RLWE dimension 1, degree 512, 8 levels of base 16) with key errors
of magnitude at most 10 and `E = 16384000`. -/
example : ∃ sks : ServerKeySet 4 1 9 ⟨⟨4, 8, 32⟩, ⟨4, 8, 32⟩⟩,
    ParamsOk ⟨0, fun _ u v => ∑ i, u i * v i⟩ 1 9 ⟨⟨4, 8, 32⟩, ⟨4, 8, 32⟩⟩ ∧
    KeysOk ⟨0, fun _ u v => ∑ i, u i * v i⟩ sks ![true, false, true, true] (fun _ c => c.val % 3 == 0) 10 10 ∧
    bootstrapBound true 4 1 (2 ^ 9) ⟨4, 8, 32⟩ ⟨4, 8, 32⟩ 10 10 ≤ 16384000 ∧
    2 * (7 * 16384000) + 2 ^ (31 - 9) * ((keyWeight ![true, false, true, true] : Int) + 1) < 2 ^ 28 := by
  have hg : GadgetOk ⟨4, 8, 32⟩ := ⟨by decide, by decide, by decide, by decide, rfl⟩
  obtain ⟨bsk, hbsk⟩ := (C22_odd_dimension ⟨0, fun _ u v => ∑ i, u i * v i⟩ (d := 4) (k := 1) (n := 2 ^ 9)
    ⟨32, fun i => BitVec.ofInt 32 (bit ((![true, false, true, true] : Fin 4 → Bool) i))⟩
    ⟨32, fun _ c => BitVec.ofInt 32 (bit (c.val % 3 == 0))⟩
    ⟨4, 8, 32⟩ (fun _ _ _ _ _ => 7) (fun i _ _ => BitVec.ofInt 32 (if i % 2 = 0 then 10 else -3)) true false).2 rfl
  refine ⟨⟨bsk, KeySwitch.genKey ⟨4, 8, 32⟩
      (flattenKey ⟨32, fun (_ : Fin 1) (c : Fin (2 ^ 9)) => BitVec.ofInt 32 (bit (c.val % 3 == 0))⟩)
      ⟨32, fun i => BitVec.ofInt 32 (bit ((![true, false, true, true] : Fin 4 → Bool) i))⟩ (fun _ _ _ => 5)
      (fun _ _ => BitVec.ofInt 32 (-10))⟩, ?_, ?_, ?_, ?_⟩
  · exact ⟨by decide, by decide, hg, fun h => absurd h (by decide), hg⟩
  · refine ⟨fun _ _ _ _ _ => 7, fun i _ _ => if i % 2 = 0 then 10 else -3, fun _ _ _ => 5, fun _ _ => -10,
      ?_, ?_, ?_⟩
    · intro i p l; dsimp only; split <;> decide
    · intro i l; show |(-10 : Int)| ≤ 10; decide
    · unfold mkServerKeySet
      simp only [bind, Except.bind, pure, Except.pure]
      rw [hbsk]
  · decide
  · decide

/-- C25: the parallel variants return the gate-by-gate results, for every server key made by
`ServerKeySet`. -/
theorem C25_pmap (be : Backend) {d k logN : Nat} {params : Parameters}
    (sks : ServerKeySet d k logN params) (lz : Fin d → Bool) (s : Fin k → Fin (2 ^ logN) → Bool) (Eb Ek : Int)
    (hK : KeysOk be sks lz s Eb Ek)
    (in3 : List ((Fin (d + 1) → W) × (Fin (d + 1) → W) × (Fin (d + 1) → W) × Nat))
    (in2 : List ((Fin (d + 1) → W) × (Fin (d + 1) → W) × Nat)) :
    (∀ outs, in3.mapM (fun v => JaxiteBool.lut3 be sks v.1 v.2.1 v.2.2.1 v.2.2.2) = .ok outs →
      pmapLut3 be sks in3 = .ok outs) ∧
    (∀ outs, in2.mapM (fun v => JaxiteBool.lut2 be sks v.1 v.2.1 v.2.2) = .ok outs →
      pmapLut2 be sks in2 = .ok outs) := by
  have hflags : sks.bsk.useBmmp = true ∧ sks.bsk.useBat = false := by
    obtain ⟨a, e, ka, ke, he, hke, hmk⟩ := hK
    unfold mkServerKeySet at hmk
    simp only [bind, Except.bind] at hmk
    split at hmk
    · cases hmk
    · rename_i bsk hb
      have hb' := bskAt_gen be _ _ params.bsDecomp a _ true false bsk hb
      simp only [pure, Except.pure, Except.ok.injEq] at hmk
      rw [← hmk]
      exact ⟨hb'.1, hb'.2.1⟩
  have hsame : ({ sks with bsk := { sks.bsk with useBmmp := true, useBat := false } } :
      ServerKeySet d k logN params) = sks := by
    obtain ⟨⟨c, en, b1, b2⟩, ksk⟩ := sks
    simp only at hflags
    obtain ⟨rfl, rfl⟩ := hflags
    rfl
  constructor
  · intro outs h
    unfold pmapLut3
    simp only [hsame]
    induction in3 generalizing outs with
    | nil => exact h
    | cons v t ih =>
      rw [List.mapM_cons] at h
      simp only [bind, Except.bind, pure, Except.pure] at h ⊢
      rw [List.mapM_cons]
      unfold JaxiteBool.lut3 at h
      simp only [bind, Except.bind] at h ⊢
      cases hp : lutPoly be k logN 3 v.2.2.2 with
      | error m => rw [hp] at h; cases h
      | ok poly =>
        rw [hp] at h
        simp only at h ⊢
        cases hc : callBootstrap be sks (fun i => 4 * v.2.2.1 i + 2 * v.2.1 i + v.1 i) poly with
        | error m => rw [hc] at h; cases h
        | ok o =>
          rw [hc] at h
          simp only at h
          cases ht : t.mapM (fun v => JaxiteBool.lut3 be sks v.1 v.2.1 v.2.2.1 v.2.2.2) with
          | error m => 
            unfold JaxiteBool.lut3 at ht
            simp only [bind, Except.bind] at ht
            rw [ht] at h; cases h
          | ok os =>
            have hih := ih os ht
            unfold JaxiteBool.lut3 at ht
            simp only [bind, Except.bind] at ht hih
            rw [ht] at h
            cases hq : t.mapM (fun v => lutPoly be k logN 3 v.2.2.2) with
            | error m => rw [hq] at hih; cases hih
            | ok ps =>
              rw [hq] at hih
              simp only [List.zip_cons_cons, pure, Except.pure] at hih ⊢
              rw [List.mapM_cons]
              simp only [bind, Except.bind, pure, Except.pure]
              rw [hc, hih]
              exact h
  · intro outs h
    unfold pmapLut2
    simp only [hsame]
    induction in2 generalizing outs with
    | nil => exact h
    | cons v t ih =>
      rw [List.mapM_cons] at h
      simp only [bind, Except.bind, pure, Except.pure] at h ⊢
      rw [List.mapM_cons]
      unfold JaxiteBool.lut2 at h
      simp only [bind, Except.bind] at h ⊢
      cases hp : lutPoly be k logN 2 v.2.2 with
      | error m => rw [hp] at h; cases h
      | ok poly =>
        rw [hp] at h
        simp only at h ⊢
        cases hc : callBootstrap be sks (fun i => 2 * v.2.1 i + v.1 i) poly with
        | error m => rw [hc] at h; cases h
        | ok o =>
          rw [hc] at h
          simp only at h
          cases ht : t.mapM (fun v => JaxiteBool.lut2 be sks v.1 v.2.1 v.2.2) with
          | error m => 
            unfold JaxiteBool.lut2 at ht
            simp only [bind, Except.bind] at ht
            rw [ht] at h; cases h
          | ok os =>
            have hih := ih os ht
            unfold JaxiteBool.lut2 at ht
            simp only [bind, Except.bind] at ht hih
            rw [ht] at h
            cases hq : t.mapM (fun v => lutPoly be k logN 2 v.2.2) with
            | error m => rw [hq] at hih; cases hih
            | ok ps =>
              rw [hq] at hih
              simp only [List.zip_cons_cons, pure, Except.pure] at hih ⊢
              rw [List.mapM_cons]
              simp only [bind, Except.bind, pure, Except.pure]
              rw [hc, hih]
              exact h

end Verif.Props
