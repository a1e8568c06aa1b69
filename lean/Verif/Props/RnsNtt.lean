import Verif.Lemmas.RnsNttRun

/-!
# Properties C32 and C48: the iterative RNS transform and the `RnsPolynomial` class
-/

namespace Verif.Props
open Verif.RnsNtt Verif.CkksMath Verif.BitReversal Verif.NttCore Verif.NttCpu Finset

/-- C32: the constructor accepts exactly the documented parameters (`n` a power of two, `q ≡ 1 mod 2n`), except that
`n = 1` fails. -/
theorem C32_constructor (n q : Nat) :
    ((¬ ∃ k, n = 2 ^ k) → mkNtt n q = .error "ValueError") ∧
    (q % (2 * n) ≠ 1 → mkNtt n q = .error "ValueError") ∧
    (q.Prime → q % (2 * n) = 1 → (∃ k, 1 ≤ k ∧ n = 2 ^ k) → ∃ p, mkNtt n q = .ok p ∧ p.n = n ∧ p.q = q) ∧
    (n = 1 → ∀ p, mkNtt n q ≠ .ok p) := by
  have hpow := (C34_primitive_root_rejects n q).1
  refine ⟨?_, ?_, ?_, ?_⟩
  · intro h
    have : isPowerOfTwo n = false := by
      cases hb : isPowerOfTwo n with
      | false => rfl
      | true => exact absurd (hpow.1 hb) h
    unfold mkNtt
    simp only [this]; rfl
  · intro h
    unfold mkNtt
    cases hb : isPowerOfTwo n with
    | false => rfl
    | true =>
      simp only [bind, Except.bind, h, ne_eq, not_false_eq_true, if_true]
      rfl
  · rintro hq hmod ⟨k, hk, rfl⟩
    have hd : 2 * 2 ^ k ∣ q - 1 := by
      have := Nat.div_add_mod q (2 * 2 ^ k)
      rw [hmod] at this
      exact ⟨q / (2 * 2 ^ k), by omega⟩
    obtain ⟨p, psi, h1, -, h3, h4, -⟩ := mkNtt_spec k q hk hq hd
    exact ⟨p, h1, h3, h4⟩
  · rintro rfl p h
    unfold mkNtt at h
    cases h1 : isPowerOfTwo 1 with
    | false => simp only [h1] at h; exact absurd h (by intro h; cases h)
    | true =>
      simp only [h1, bind, Except.bind] at h
      by_cases h2 : q % (2 * 1) ≠ 1
      · simp only [h2, ne_eq, not_false_eq_true, if_true] at h; cases h
      · cases h3 : invMod 1 (q : Int) with
        | error e => simp [h2, h3] at h
        | ok v =>
          cases h4 : primitiveRoot (2 * 1) q with
          | error e => simp [h2, h3, h4] at h
          | ok w => simp [h2, h3, h4] at h

/-- What the transform theorems need from the constructor. -/
theorem ntt_setup {k q : Nat} {p : Ntt} (hk : 1 ≤ k) (hq : q.Prime) (hp : mkNtt (2 ^ k) q = .ok p) :
    ∃ ψ : ZMod q, p.q = q ∧ (2 ^ k : ZMod q) * (p.nInvModQ : ZMod q) = 1 ∧ orderOf ψ = 2 * 2 ^ k ∧
      ψ ^ 2 ^ k = -1 ∧
      (∀ i, i < 2 ^ k → vec q p.psisBitrev i = ψ ^ bitReversal i k) ∧
      (∀ i, i < 2 ^ k → vec q p.psisInvBitrev i * ψ ^ (bitReversal i k + 1) = 1) := by
  have hmod : q % (2 * 2 ^ k) = 1 := by
    by_contra h
    rw [(C32_constructor (2 ^ k) q).2.1 h] at hp
    cases hp
  have hd : 2 * 2 ^ k ∣ q - 1 := by
    have := Nat.div_add_mod q (2 * 2 ^ k)
    rw [hmod] at this
    exact ⟨q / (2 * 2 ^ k), by omega⟩
  obtain ⟨p', psi, h1, -, h3, h4, h5, h6, h7, h8⟩ := mkNtt_spec k q hk hq hd
  rw [hp] at h1
  cases h1
  exact ⟨psi, h4, h5, h6, pow_half_order hq h6, h7, h8⟩

theorem forward_facts {k q : Nat} {p : Ntt} (hk : 1 ≤ k) (hq : q.Prime) (hp : mkNtt (2 ^ k) q = .ok p) (c : List Int)
    (hc : c.length = 2 ^ k) :
    (forward p c).length = 2 ^ k ∧ ∀ i, i < 2 ^ k → 0 ≤ (forward p c).getD i 0 ∧ (forward p c).getD i 0 < q := by
  obtain ⟨ψ, e1, -, -, -, h7, -⟩ := ntt_setup hk hq hp
  have hq2 := hq.two_le
  obtain ⟨a, -, b, -⟩ := ctStages_run p.psisBitrev ψ h7 c hc k le_rfl
  unfold forward
  rw [hc, numBits_two_pow, e1]
  exact ⟨a, fun i hi => b i hi ⟨by omega, by omega⟩⟩

/-- C32: the forward transform evaluates the polynomial at the odd powers of a primitive `2n`-th root of unity (the
same root for all inputs), in bit-reversed order, and returns reduced values. -/
theorem C32_forward (k q : Nat) (hk : 1 ≤ k) (hq : q.Prime) (p : Ntt) (hp : mkNtt (2 ^ k) q = .ok p) :
    ∃ ψ : ZMod q, orderOf ψ = 2 * 2 ^ k ∧ ∀ c : List Int, c.length = 2 ^ k →
      (forward p c).length = 2 ^ k ∧
      ∀ i, i < 2 ^ k → 0 ≤ (forward p c).getD i 0 ∧ (forward p c).getD i 0 < q ∧
        ((forward p c).getD i 0 : ZMod q) =
          ∑ j ∈ range (2 ^ k), (c.getD j 0 : ZMod q) * ψ ^ ((2 * bitReversal i k + 1) * j) := by
  obtain ⟨ψ, e1, e2, h6, hψ, h7, h8⟩ := ntt_setup hk hq hp
  refine ⟨ψ, h6, ?_⟩
  intro c hc
  obtain ⟨f1, f2⟩ := forward_facts hk hq hp c hc
  refine ⟨f1, fun i hi => ⟨(f2 i hi).1, (f2 i hi).2, ?_⟩⟩
  have h := ctStages_spec p.psisBitrev ψ hψ h7 c hc k le_rfl i hi
  rw [partialCt_full] at h
  unfold forward
  rw [hc, numBits_two_pow, e1]
  exact h

theorem backward_facts {k q : Nat} {p : Ntt} (hk : 1 ≤ k) (hq : q.Prime) (hp : mkNtt (2 ^ k) q = .ok p) (c : List Int)
    (hc : c.length = 2 ^ k) :
    (backward p c).length = 2 ^ k ∧ (∀ i, i < 2 ^ k → 0 ≤ (backward p c).getD i 0 ∧ (backward p c).getD i 0 < q) ∧
    ∀ i, i < 2 ^ k → vec q (backward p c) i = (p.nInvModQ : ZMod q) * vec q (gsStages q p.psisInvBitrev c k).1 i := by
  obtain ⟨ψ, e1, -, -, -, -, -⟩ := ntt_setup hk hq hp
  have hq2 := hq.two_le
  obtain ⟨a, -, -⟩ := gsStages_run (q := q) p.psisInvBitrev c hc k le_rfl
  have hget : ∀ i, i < 2 ^ k → (backward p c).getD i 0 =
      (gsStages q p.psisInvBitrev c k).1.getD i 0 * p.nInvModQ % q := by
    intro i hi
    unfold backward
    rw [hc, numBits_two_pow, e1, List.getD_eq_getElem _ _ (by rw [List.length_map, a]; exact hi),
      List.getElem_map, List.getD_eq_getElem _ _ (by rw [a]; exact hi)]
  refine ⟨by unfold backward; rw [List.length_map, hc, numBits_two_pow, e1, a], ?_, ?_⟩
  · intro i hi
    rw [hget i hi]
    exact ⟨Int.emod_nonneg _ (by omega), Int.emod_lt_of_pos _ (by omega)⟩
  · intro i hi
    unfold vec
    rw [hget i hi, ZMod.intCast_mod]
    push_cast; ring

theorem list_eq_of_cast {k q : Nat} (l c : List Int) (hl : l.length = 2 ^ k) (hc : c.length = 2 ^ k)
    (hb : ∀ i, i < 2 ^ k → 0 ≤ l.getD i 0 ∧ l.getD i 0 < q) (h : ∀ i, i < 2 ^ k → vec q l i = vec q c i) :
    l = c.map (fun x => x % (q : Int)) := by
  apply List.ext_getElem
  · rw [hl, List.length_map, hc]
  · intro i h1 h2
    rw [hl] at h1
    have := eq_emod_of_cast (hb i h1) (h i h1)
    rw [List.getElem_map, ← List.getD_eq_getElem l 0 (by omega), ← List.getD_eq_getElem c 0 (by omega)]
    exact this

/-- C32: `backward` undoes `forward`. -/
theorem C32_inverse_left (k q : Nat) (hk : 1 ≤ k) (hq : q.Prime) (p : Ntt) (hp : mkNtt (2 ^ k) q = .ok p)
    (c : List Int) (hc : c.length = 2 ^ k) : backward p (forward p c) = c.map (fun x => x % (q : Int)) := by
  obtain ⟨ψ, e1, e2, h6, hψ, h7, h8⟩ := ntt_setup hk hq hp
  obtain ⟨f1, f2⟩ := forward_facts hk hq hp c hc
  obtain ⟨b1, b2, b3⟩ := backward_facts hk hq hp (forward p c) f1
  apply list_eq_of_cast _ _ b1 hc b2
  intro i hi
  have hf : ∀ j, j < 2 ^ k → vec q (forward p c) j = partialCt k ψ (vec q c) k j := by
    intro j hj
    have h := ctStages_spec p.psisBitrev ψ hψ h7 c hc k le_rfl j hj
    unfold forward
    rw [hc, numBits_two_pow, e1]
    exact h
  rw [b3 i hi, gs_after_ct p.psisInvBitrev ψ hψ h8 (vec q c) _ f1 hf k le_rfl i hi, Nat.sub_self,
    partialCt_zero _ _ _ _ hi]
  linear_combination (vec q c i) * e2

/-- C32: `forward` undoes `backward`. -/
theorem C32_inverse_right (k q : Nat) (hk : 1 ≤ k) (hq : q.Prime) (p : Ntt) (hp : mkNtt (2 ^ k) q = .ok p)
    (c : List Int) (hc : c.length = 2 ^ k) : forward p (backward p c) = c.map (fun x => x % (q : Int)) := by
  obtain ⟨ψ, e1, e2, h6, hψ, h7, h8⟩ := ntt_setup hk hq hp
  obtain ⟨b1, b2, b3⟩ := backward_facts hk hq hp c hc
  obtain ⟨f1, f2⟩ := forward_facts hk hq hp (backward p c) b1
  apply list_eq_of_cast _ _ f1 hc f2
  intro i hi
  have h := ct_after_gs p.psisBitrev p.psisInvBitrev ψ h7 h8 c hc _ (backward p c) b1 b3 k le_rfl i hi
  have e : vec q (forward p (backward p c)) i = vec q (ctStages q p.psisBitrev k (backward p c) k).1 i := by
    unfold forward
    rw [b1, numBits_two_pow, e1]
  rw [e, h, Nat.sub_self]
  simp only [gsStages]
  linear_combination (vec q c i) * e2

/-- The polynomial of a coefficient list in `(Z/q)[X]/(X^n + 1)`. -/
noncomputable def ringElt (n q : Nat) (c : List Int) : Nega.Q (ZMod q) n :=
  Nega.ev (fun i : Fin n => (c.getD i 0 : ZMod q))

/-- C32: multiplying two transforms entry by entry (with reduction) and transforming back gives the product modulo
`X^n + 1`. -/
theorem C32_product (k q : Nat) (hk : 1 ≤ k) (hq : q.Prime) (p : Ntt) (hp : mkNtt (2 ^ k) q = .ok p)
    (a b : List Int) (ha : a.length = 2 ^ k) (hb : b.length = 2 ^ k) :
    ringElt (2 ^ k) q (backward p (List.zipWith (fun x y => x * y % (q : Int)) (forward p a) (forward p b))) =
      ringElt (2 ^ k) q a * ringElt (2 ^ k) q b := by
  obtain ⟨ψ, e1, e2, h6, hψ, h7, h8⟩ := ntt_setup hk hq hp
  have hev : ∀ c : List Int, c.length = 2 ^ k → ∀ i, i < 2 ^ k → ∀ hz : (ψ ^ (2 * bitReversal i k + 1)) ^ 2 ^ k = -1,
      vec q (forward p c) i = evalAt _ hz (ringElt (2 ^ k) q c) := by
    intro c hc i hi hz
    have h := ctStages_spec p.psisBitrev ψ hψ h7 c hc k le_rfl i hi
    rw [partialCt_full] at h
    unfold forward ringElt
    rw [hc, numBits_two_pow, e1, h, evalAt_ev,
      ← Fin.sum_univ_eq_sum_range (fun j => vec q c j * ψ ^ ((2 * bitReversal i k + 1) * j))]
    apply Finset.sum_congr rfl
    intro j _
    rw [← pow_mul]; rfl
  -- a coefficient list of the product
  set w : Fin (2 ^ k) → ZMod q := Nega.mul (fun i : Fin (2 ^ k) => (a.getD i 0 : ZMod q))
    (fun i : Fin (2 ^ k) => (b.getD i 0 : ZMod q)) with hw
  have : NeZero q := ⟨by have := hq.two_le; omega⟩
  obtain ⟨c, hc⟩ : ∃ c : List Int, c = List.ofFn (fun i => ((w i).val : Int)) := ⟨_, rfl⟩
  have hclen : c.length = 2 ^ k := by rw [hc]; simp
  have hcget : ∀ i : Fin (2 ^ k), (c.getD i 0 : ZMod q) = w i := by
    intro i
    rw [List.getD_eq_getElem _ _ (by rw [hclen]; exact i.2)]
    subst hc
    simp
  have hcw : ringElt (2 ^ k) q c = ringElt (2 ^ k) q a * ringElt (2 ^ k) q b := by
    unfold ringElt
    rw [← Nega.ev_mul]
    congr 1
    funext i
    exact hcget i
  obtain ⟨fa1, fa2⟩ := forward_facts hk hq hp a ha
  obtain ⟨fb1, fb2⟩ := forward_facts hk hq hp b hb
  obtain ⟨fc1, fc2⟩ := forward_facts hk hq hp c hclen
  have hzip : List.zipWith (fun x y => x * y % (q : Int)) (forward p a) (forward p b) = forward p c := by
    apply List.ext_getElem
    · rw [List.length_zipWith, fa1, fb1, fc1]; simp
    · intro i h1 h2
      rw [fc1] at h2
      have hz : (ψ ^ (2 * bitReversal i k + 1)) ^ 2 ^ k = -1 := by
        rw [← pow_mul, Nat.mul_comm, pow_mul, hψ, pow_succ, pow_mul]; simp
      rw [List.getElem_zipWith]
      symm
      have hA : (((forward p a)[i]'(by rw [fa1]; exact h2) : Int) : ZMod q) = vec q (forward p a) i := by
        unfold vec; rw [List.getD_eq_getElem _ _ (by rw [fa1]; exact h2)]
      have hB : (((forward p b)[i]'(by rw [fb1]; exact h2) : Int) : ZMod q) = vec q (forward p b) i := by
        unfold vec; rw [List.getD_eq_getElem _ _ (by rw [fb1]; exact h2)]
      have hC : (((forward p c)[i]'(by rw [fc1]; exact h2) : Int) : ZMod q) = vec q (forward p c) i := by
        unfold vec; rw [List.getD_eq_getElem _ _ (by rw [fc1]; exact h2)]
      have hb2 := fc2 i h2
      rw [List.getD_eq_getElem _ _ (by rw [fc1]; exact h2)] at hb2
      apply eq_emod_of_cast hb2
      push_cast
      rw [hA, hB, hC, hev a ha i h2 hz, hev b hb i h2 hz, hev c hclen i h2 hz, hcw, map_mul]
  rw [hzip, C32_inverse_left k q hk hq p hp c hclen, ← hcw]
  unfold ringElt
  congr 1
  funext i
  rw [List.getD_eq_getElem _ _ (by rw [List.length_map, hclen]; exact i.2), List.getElem_map, ZMod.intCast_mod,
    List.getD_eq_getElem _ _ (by rw [hclen]; exact i.2)]

/-! ## C48 -/

/-- Rows match the moduli and every row has `degree` entries. -/
def WellFormed (p : Poly) : Prop := p.coeffs.length = p.moduli.length ∧ ∀ row ∈ p.coeffs, row.length = p.degree

/-- Every entry of row `i` lies in `[0, q_i)`. -/
def Reduced (p : Poly) : Prop :=
  ∀ i (h : i < p.coeffs.length) (h' : i < p.moduli.length) x, x ∈ p.coeffs[i] → 0 ≤ x ∧ x < (p.moduli[i] : Int)

theorem mkParams_spec {degree : Nat} {moduli : List Nat} {params : List Ntt} (h : mkParams degree moduli = .ok params) :
    params.length = moduli.length ∧
    ∀ i (h1 : i < moduli.length) (h2 : i < params.length), mkNtt degree moduli[i] = .ok params[i] := by
  unfold mkParams at h
  induction moduli generalizing params with
  | nil => simp only [List.mapM_nil, pure, Except.pure] at h; cases h; simp
  | cons q t ih =>
    rw [List.mapM_cons] at h
    simp only [bind, Except.bind, pure, Except.pure] at h
    cases hq : mkNtt degree q with
    | error e => rw [hq] at h; cases h
    | ok v =>
      rw [hq] at h
      cases ht : List.mapM (fun q => mkNtt degree q) t with
      | error e => rw [ht] at h; cases h
      | ok vs =>
        rw [ht] at h
        cases h
        obtain ⟨a, b⟩ := ih ht
        refine ⟨by simp [a], ?_⟩
        intro i h1 h2
        cases i with
        | zero => exact hq
        | succ i => exact b i (by simpa using h1) (by simpa using h2)

theorem mapRows_getElem (f : Ntt → List Int → List Int) (params : List Ntt) (count : Nat) (rows : List (List Int))
    (h1 : rows.length = count) (h2 : params.length = count) (i : Nat) (hi : i < count) :
    (mapRows f params count rows)[i]? = some (f (params[i]'(by omega)) (rows[i]'(by omega))) := by
  unfold mapRows
  rw [List.getElem?_mapIdx, List.getElem?_eq_getElem (by omega)]
  simp only [if_pos hi]
  rw [List.getElem?_eq_getElem (by omega)]
  rfl

theorem mapRows_length (f : Ntt → List Int → List Int) (params : List Ntt) (count : Nat) (rows : List (List Int)) :
    (mapRows f params count rows).length = rows.length := by
  unfold mapRows; simp

theorem map_mod_self {q : Int} (l : List Int) (h : ∀ x ∈ l, 0 ≤ x ∧ x < q) : l.map (fun x => x % q) = l := by
  conv_rhs => rw [← List.map_id l]
  apply List.map_congr_left
  intro x hx
  exact Int.emod_eq_of_lt (h x hx).1 (h x hx).2

theorem roundtrip_rows {k : Nat} (p : Poly) (params : List Ntt) (hdeg : p.degree = 2 ^ k) (hwf : WellFormed p)
    (hred : Reduced p) (hparams : mkParams p.degree p.moduli = .ok params)
    (f g : Ntt → List Int → List Int)
    (hfg : ∀ q ∈ p.moduli, ∀ v, mkNtt (2 ^ k) q = .ok v → ∀ c : List Int, c.length = 2 ^ k →
      g v (f v c) = c.map (fun x => x % (q : Int))) :
    mapRows g params p.moduli.length (mapRows f params p.moduli.length p.coeffs) = p.coeffs := by
  obtain ⟨a, b⟩ := mkParams_spec hparams
  apply List.ext_getElem?
  intro i
  rcases Nat.lt_or_ge i p.moduli.length with hi | hi
  · rw [mapRows_getElem _ _ _ _ (by rw [mapRows_length, hwf.1]) a i hi]
    have h1 := mapRows_getElem f params p.moduli.length p.coeffs hwf.1 a i hi
    have hl : i < (mapRows f params p.moduli.length p.coeffs).length := by rw [mapRows_length, hwf.1]; exact hi
    rw [List.getElem?_eq_getElem hl] at h1
    rw [Option.some.inj h1, hfg _ (List.getElem_mem hi) _ (by rw [← hdeg]; exact b i hi (by omega)) _
      (by rw [← hdeg]; exact hwf.2 _ (List.getElem_mem _)),
      map_mod_self _ (fun x hx => hred i (by rw [hwf.1]; exact hi) hi x hx), List.getElem?_eq_getElem]
  · rw [List.getElem?_eq_none (by rw [mapRows_length, mapRows_length, hwf.1]; exact hi),
      List.getElem?_eq_none (by rw [hwf.1]; exact hi)]

/-- C48: changing form and back is the identity on well-formed reduced polynomials, in both directions, and both
conversions are idempotent. -/
theorem C48_forms (k : Nat) (hk : 1 ≤ k) (p : Poly) (params : List Ntt) (hdeg : p.degree = 2 ^ k)
    (hwf : WellFormed p) (hred : Reduced p) (hprime : ∀ q ∈ p.moduli, q.Prime)
    (hparams : mkParams p.degree p.moduli = .ok params) :
    (p.isNtt = false → (toNttForm params p).isNtt = true ∧ toCoeffsForm params (toNttForm params p) = p) ∧
    (p.isNtt = true → (toCoeffsForm params p).isNtt = false ∧ toNttForm params (toCoeffsForm params p) = p) ∧
    toNttForm params (toNttForm params p) = toNttForm params p ∧
    toCoeffsForm params (toCoeffsForm params p) = toCoeffsForm params p := by
  have r1 := roundtrip_rows p params hdeg hwf hred hparams forward backward
    (fun q hq v hv c hc => C32_inverse_left k q hk (hprime q hq) v hv c hc)
  have r2 := roundtrip_rows p params hdeg hwf hred hparams backward forward
    (fun q hq v hv c hc => C32_inverse_right k q hk (hprime q hq) v hv c hc)
  refine ⟨?_, ?_, ?_, ?_⟩
  · intro h
    unfold toNttForm toCoeffsForm
    simp only [h, Bool.false_eq_true, if_false, if_true, true_and]
    rw [r1]
    cases p; simp_all
  · intro h
    unfold toNttForm toCoeffsForm
    simp only [h, Bool.false_eq_true, if_false, if_true, true_and]
    rw [r2]
    cases p; simp_all
  · cases h : p.isNtt <;> simp [toNttForm, h]
  · cases h : p.isNtt <;> simp [toCoeffsForm, h]

/-- The test made by `_check_compatible`. -/
theorem compatible_iff (p o : Poly) : compatible p o = true ↔
    p.degree = o.degree ∧ p.moduli = o.moduli ∧ p.coeffs.length = o.coeffs.length ∧ p.isNtt = o.isNtt := by
  unfold compatible
  simp only [Bool.and_eq_true, beq_iff_eq, List.all_eq_true, List.mem_range]
  constructor
  · rintro ⟨⟨⟨⟨h1, h2⟩, h3⟩, h4⟩, h5⟩
    refine ⟨h1, ?_, h4, h5⟩
    apply List.ext_getElem? 
    intro i
    rcases Nat.lt_or_ge i p.moduli.length with hi | hi
    · exact h3 i hi
    · rw [List.getElem?_eq_none hi, List.getElem?_eq_none (by omega)]
  · rintro ⟨h1, h2, h4, h5⟩
    exact ⟨⟨⟨⟨h1, by rw [h2]⟩, fun i _ => by rw [h2]⟩, h4⟩, h5⟩

/-- C48: operands that differ in degree, moduli, number of rows or form are rejected, and products need the
transformed form. -/
theorem C48_rejects (p o : Poly)
    (h : p.degree ≠ o.degree ∨ p.moduli ≠ o.moduli ∨ p.coeffs.length ≠ o.coeffs.length ∨ p.isNtt ≠ o.isNtt) :
    add p o = .error "ValueError" ∧ sub p o = .error "ValueError" ∧ mul p o = .error "ValueError" := by
  have : compatible p o = false := by
    cases hc : compatible p o with
    | false => rfl
    | true => rw [compatible_iff] at hc; tauto
  simp [add, sub, mul, this]

/-- Different moduli are refused. -/
example : add ⟨4, [17], [[1, 2, 3, 4]], false⟩ ⟨4, [41], [[1, 2, 3, 4]], false⟩ = .error "ValueError" :=
  (C48_rejects _ _ (Or.inr (Or.inl (by decide)))).1

theorem C48_mul_rejects_coefficient_form (p o : Poly) (h : p.isNtt = false ∨ o.isNtt = false) :
    mul p o = .error "ValueError" := by
  unfold mul
  split
  · rfl
  · rcases h with h | h <;> simp [h]

example := C48_mul_rejects_coefficient_form ⟨4, [17], [[1, 2, 3, 4]], false⟩ ⟨4, [17], [[1, 2, 3, 4]], true⟩ (Or.inl rfl)

theorem tabulate_row (degree : Nat) (moduli : List Nat) (f : Nat → Nat → Nat → Int) (i : Nat) (hi : i < moduli.length) :
    (tabulate degree moduli f)[i]? = some ((List.range degree).map (fun j => f i j moduli[i])) := by
  unfold tabulate
  rw [List.getElem?_mapIdx, List.getElem?_eq_getElem hi]
  rfl

theorem tabulate_wf (degree : Nat) (moduli : List Nat) (f : Nat → Nat → Nat → Int) (b : Bool) :
    WellFormed { degree := degree, moduli := moduli, coeffs := tabulate degree moduli f, isNtt := b } := by
  refine ⟨by simp [tabulate], ?_⟩
  intro row hrow
  simp only [tabulate, List.mem_mapIdx] at hrow
  obtain ⟨i, hi, rfl⟩ := hrow
  simp

theorem tabulate_entry (degree : Nat) (moduli : List Nat) (f : Nat → Nat → Nat → Int) (b : Bool) (i j : Nat)
    (hi : i < moduli.length) (hj : j < degree) :
    entry { degree := degree, moduli := moduli, coeffs := tabulate degree moduli f, isNtt := b } i j =
      f i j moduli[i] := by
  unfold entry
  simp only [List.getD_eq_getElem?_getD, tabulate_row _ _ _ _ hi, Option.getD_some, List.getElem?_map,
    List.getElem?_range hj, Option.map_some]

theorem tabulate_reduced (degree : Nat) (moduli : List Nat) (f : Nat → Nat → Nat → Int) (b : Bool)
    (h : ∀ i j q, q ∈ moduli → 0 ≤ f i j q ∧ f i j q < q) :
    Reduced { degree := degree, moduli := moduli, coeffs := tabulate degree moduli f, isNtt := b } := by
  intro i h1 h2 x hx
  have hr := tabulate_row degree moduli f i h2
  have h1' : i < (tabulate degree moduli f).length := h1
  rw [List.getElem?_eq_getElem h1'] at hr
  have hx' : x ∈ (tabulate degree moduli f)[i] := hx
  rw [Option.some.inj hr, List.mem_map] at hx'
  obtain ⟨j, -, rfl⟩ := hx'
  exact h i j _ (List.getElem_mem h2)

/-- C48: `neg`, `add`, `sub` compute the ring operations limb by limb, keep the form and return reduced, well-formed
polynomials. The coefficients of a sum are stated entry by entry; they hold in either form. -/
theorem C48_neg_add_sub (p o : Poly) (hc : p.degree = o.degree ∧ p.moduli = o.moduli ∧
      p.coeffs.length = o.coeffs.length ∧ p.isNtt = o.isNtt) (hpos : ∀ q ∈ p.moduli, 0 < q) :
    ∃ s d, add p o = .ok s ∧ sub p o = .ok d ∧
      (∀ r ∈ [s, d, neg p], r.degree = p.degree ∧ r.moduli = p.moduli ∧ r.isNtt = p.isNtt ∧ WellFormed r ∧
        Reduced r) ∧
      ∀ i (hi : i < p.moduli.length) j, j < p.degree →
        (entry s i j : ZMod p.moduli[i]) = entry p i j + entry o i j ∧
        (entry d i j : ZMod p.moduli[i]) = entry p i j - entry o i j ∧
        (entry (neg p) i j : ZMod p.moduli[i]) = -entry p i j := by
  have hcomp := (compatible_iff p o).2 hc
  refine ⟨_, _, by unfold add; rw [hcomp]; rfl, by unfold sub; rw [hcomp]; rfl, ?_, ?_⟩
  · have hred : ∀ (x : Int) q, q ∈ p.moduli → 0 ≤ x % (q : Int) ∧ x % (q : Int) < q := by
      intro x q hq
      have := hpos q hq
      exact ⟨Int.emod_nonneg _ (by omega), Int.emod_lt_of_pos _ (by omega)⟩
    intro r hr
    simp only [List.mem_cons, List.not_mem_nil, or_false] at hr
    rcases hr with rfl | rfl | rfl
    · exact ⟨rfl, rfl, rfl, tabulate_wf _ _ _ _, tabulate_reduced _ _ _ _ (fun i j q hq => hred _ q hq)⟩
    · exact ⟨rfl, rfl, rfl, tabulate_wf _ _ _ _, tabulate_reduced _ _ _ _ (fun i j q hq => hred _ q hq)⟩
    · exact ⟨rfl, rfl, rfl, tabulate_wf _ _ _ _, tabulate_reduced _ _ _ _ (fun i j q hq => hred _ q hq)⟩
  · intro i hi j hj
    unfold neg
    simp only [tabulate_entry _ _ _ _ i j hi hj, ZMod.intCast_mod]
    push_cast
    simp

example := C48_neg_add_sub ⟨4, [17], [[1, 2, 3, 4]], false⟩ ⟨4, [17], [[16, 0, 3, 4]], false⟩ ⟨rfl, rfl, rfl, rfl⟩ (by decide)

/-- C48: the product of the transformed forms, converted back, is the ring product in every limb. -/
theorem C48_mul (k : Nat) (hk : 1 ≤ k) (p o : Poly) (params : List Ntt) (hdeg : p.degree = 2 ^ k)
    (hwf : WellFormed p) (hwfo : WellFormed o) (hprime : ∀ q ∈ p.moduli, q.Prime)
    (hparams : mkParams p.degree p.moduli = .ok params)
    (hc : p.degree = o.degree ∧ p.moduli = o.moduli) (hp : p.isNtt = false) (ho : o.isNtt = false) :
    ∃ m, mul (toNttForm params p) (toNttForm params o) = .ok m ∧ m.isNtt = true ∧
      (toCoeffsForm params m).isNtt = false ∧ (toCoeffsForm params m).moduli = p.moduli ∧
      ∀ i (hi : i < p.moduli.length),
        ringElt p.degree p.moduli[i] ((toCoeffsForm params m).coeffs.getD i []) =
          ringElt p.degree p.moduli[i] (p.coeffs.getD i []) * ringElt p.degree p.moduli[i] (o.coeffs.getD i []) := by
  obtain ⟨a, b⟩ := mkParams_spec hparams
  have hlo : o.coeffs.length = p.moduli.length := by rw [hwfo.1, hc.2]
  have hcomp : compatible (toNttForm params p) (toNttForm params o) = true := by
    rw [compatible_iff]
    unfold toNttForm
    simp [hp, ho, hc.1, hc.2, mapRows_length, hwf.1, hwfo.1]
  have np : (toNttForm params p).isNtt = true := by unfold toNttForm; simp [hp]
  have no : (toNttForm params o).isNtt = true := by unfold toNttForm; simp [ho]
  have dp : (toNttForm params p).degree = p.degree := by unfold toNttForm; simp [hp]
  have mp : (toNttForm params p).moduli = p.moduli := by unfold toNttForm; simp [hp]
  have cp : (toNttForm params p).coeffs = mapRows forward params p.moduli.length p.coeffs := by
    unfold toNttForm; simp [hp]
  have co : (toNttForm params o).coeffs = mapRows forward params p.moduli.length o.coeffs := by
    unfold toNttForm; simp [ho, hc.2]
  refine ⟨_, by unfold mul; rw [hcomp]; simp only [np, no]; rfl, rfl, rfl, ?_, ?_⟩
  · unfold toCoeffsForm
    simp [mp]
  · intro i hi
    have hpi : i < params.length := by omega
    have hq := hprime _ (List.getElem_mem hi)
    have hv := b i hi hpi
    rw [hdeg] at hv
    have hla : (p.coeffs[i]'(by rw [hwf.1]; exact hi)).length = 2 ^ k := by
      rw [← hdeg]; exact hwf.2 _ (List.getElem_mem _)
    have hlb : (o.coeffs[i]'(by rw [hlo]; exact hi)).length = 2 ^ k := by
      rw [← hdeg, hc.1]; exact hwfo.2 _ (List.getElem_mem _)
    obtain ⟨fa, -⟩ := forward_facts hk hq hv _ hla
    obtain ⟨fb, -⟩ := forward_facts hk hq hv _ hlb
    have key := C32_product k p.moduli[i] hk hq params[i] hv _ _ hla hlb
    have ea := mapRows_getElem forward params p.moduli.length p.coeffs hwf.1 a i hi
    have eb := mapRows_getElem forward params p.moduli.length o.coeffs hlo a i hi
    unfold toCoeffsForm
    simp only [if_true, mp]
    rw [List.getD_eq_getElem?_getD, mapRows_getElem _ _ _ _ (by simp [tabulate]) a i hi, Option.getD_some,
      List.getD_eq_getElem?_getD, List.getD_eq_getElem?_getD, List.getElem?_eq_getElem (by rw [hwf.1]; exact hi),
      List.getElem?_eq_getElem (by rw [hlo]; exact hi), Option.getD_some, Option.getD_some]
    have hrow : (tabulate (toNttForm params p).degree p.moduli (fun i j qi =>
        entry (toNttForm params p) i j * entry (toNttForm params o) i j % (qi : Int)))[i]'(by simpa [tabulate] using hi) =
        List.zipWith (fun x y => x * y % (p.moduli[i] : Int)) (forward params[i] (p.coeffs[i]'(by rw [hwf.1]; exact hi)))
          (forward params[i] (o.coeffs[i]'(by rw [hlo]; exact hi))) := by
      apply Option.some.inj
      rw [← List.getElem?_eq_getElem, tabulate_row _ _ _ _ hi]
      congr 1
      apply List.ext_getElem
      · rw [List.length_map, List.length_range, List.length_zipWith, fa, fb, dp, hdeg]; simp
      · intro j h1 h2
        have hj : j < 2 ^ k := by simpa [dp, hdeg] using h1
        simp only [List.getElem_map, List.getElem_range, List.getElem_zipWith]
        unfold entry
        rw [cp, co, List.getD_eq_getElem?_getD (l := mapRows forward params p.moduli.length p.coeffs), ea,
          List.getD_eq_getElem?_getD (l := mapRows forward params p.moduli.length o.coeffs), eb]
        simp only [Option.getD_some]
        rw [List.getD_eq_getElem _ _ (by rw [fa]; exact hj), List.getD_eq_getElem _ _ (by rw [fb]; exact hj)]
    rw [hrow]
    rw [← hdeg] at key
    exact key

/-- C48: `gen_rns_polynomial` produces a reduced well-formed polynomial in coefficient form with the given
coefficients. -/
theorem C48_gen (degree : Nat) (coeffs : List Int) (moduli : List Nat) (hl : coeffs.length = degree)
    (hpos : ∀ q ∈ moduli, 0 < q) :
    WellFormed (genRnsPolynomial degree coeffs moduli) ∧ Reduced (genRnsPolynomial degree coeffs moduli) ∧
    (genRnsPolynomial degree coeffs moduli).isNtt = false ∧
    ∀ i (hi : i < moduli.length) j, j < degree →
      (entry (genRnsPolynomial degree coeffs moduli) i j : ZMod moduli[i]) = coeffs.getD j 0 := by
  refine ⟨⟨by simp [genRnsPolynomial], ?_⟩, ?_, rfl, ?_⟩
  · intro row hrow
    simp only [genRnsPolynomial, List.mem_map] at hrow ⊢
    obtain ⟨q, -, rfl⟩ := hrow
    simp [hl]
  · intro i h1 h2 x hx
    simp only [genRnsPolynomial, List.getElem_map, List.mem_map] at hx ⊢
    obtain ⟨c, -, rfl⟩ := hx
    have := hpos _ (List.getElem_mem (l := moduli) h2)
    exact ⟨Int.emod_nonneg _ (by omega), Int.emod_lt_of_pos _ (by omega)⟩
  · intro i hi j hj
    have e : entry (genRnsPolynomial degree coeffs moduli) i j = coeffs.getD j 0 % (moduli[i] : Int) := by
      unfold entry genRnsPolynomial
      simp only [List.getD_eq_getElem?_getD, List.getElem?_map, List.getElem?_eq_getElem hi, Option.map_some,
        Option.getD_some]
      rw [List.getElem?_eq_getElem (by omega)]
      simp
    rw [e, ZMod.intCast_mod]

/-- The hypotheses of C32 (`C32_forward`, `C32_inverse_left`, `C32_inverse_right`, `C32_product`) for `n = 4`, `q = 17`. -/
example : ∃ p, mkNtt (2 ^ 2) 17 = .ok p :=
  let ⟨p, h, _⟩ := (C32_constructor (2 ^ 2) 17).2.2.1 (by decide) (by norm_num) ⟨2, by norm_num, rfl⟩
  ⟨p, h⟩

/-- The hypotheses of C48 (`C48_forms`, `C48_mul`) hold for `n = 4`, moduli `17, 41` and the polynomial `1 + 2X - X^3`. -/
example : (∃ params, mkParams 4 [17, 41] = .ok params) ∧ WellFormed (genRnsPolynomial 4 [1, 2, 0, -1] [17, 41]) ∧
    Reduced (genRnsPolynomial 4 [1, 2, 0, -1] [17, 41]) ∧ ∀ q ∈ [17, 41], q.Prime := by
  obtain ⟨p, h, -⟩ := (C32_constructor (2 ^ 2) 17).2.2.1 (by decide) (by norm_num) ⟨2, by norm_num, rfl⟩
  obtain ⟨p', h', -⟩ := (C32_constructor (2 ^ 2) 41).2.2.1 (by decide) (by norm_num) ⟨2, by norm_num, rfl⟩
  norm_num at h h'
  have hg := C48_gen 4 [1, 2, 0, -1] [17, 41] rfl (by decide)
  refine ⟨⟨[p, p'], by simp [mkParams, List.mapM_cons, h, h', bind, Except.bind, pure, Except.pure]⟩, hg.1, hg.2.1, ?_⟩
  intro q hq
  simp at hq
  rcases hq with rfl | rfl <;> decide

end Verif.Props
