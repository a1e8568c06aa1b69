import Verif.Lemmas.Pippenger
import Verif.Props.EcEdwards

/-!
# C60: Pippenger over the twisted curve; C62: slicing of the scalars

Specification: `∑ i < n, k_i • A_i` in the group of points of `y² = x³ + 1` (Mathlib); `ERep` relates extended twisted
Edwards coordinates to a point (see C59).
-/

namespace Verif.Props

open Verif.EcCurve Verif.EcChunks Verif.Pippenger Finset

attribute [local irreducible] P TWIST_D

/-- Packed chunk coordinates of a point of odd order. -/
def LTRep (p : Quad (List Nat)) (A : (W1 : WeierstrassCurve.Affine (ZMod P)).Point) : Prop :=
  OddPt A ∧ ∃ u, LRep4 p u ∧ ERep blsTwist u A

theorem LRep.unique {l : List Nat} {x y : ZMod P} (hx : LRep l x) (hy : LRep l y) : x = y := by
  obtain ⟨v, h1, -, rfl⟩ := hx
  obtain ⟨w, h2, -, rfl⟩ := hy
  rw [← h1.val, ← h2.val]

theorem LRep4.unique {p : Quad (List Nat)} {u v : Quad (ZMod P)} (hu : LRep4 p u) (hv : LRep4 p v) : u = v := by
  obtain ⟨a, b, c, d⟩ := hu
  obtain ⟨a', b', c', d'⟩ := hv
  exact Prod.ext (LRep.unique a a') (Prod.ext (LRep.unique b b') (Prod.ext (LRep.unique c c') (LRep.unique d d')))

theorem chunkConst_rep (c : Nat) (hc : c ≤ 1) : LRep (chunkConst c) (c : ZMod P) := by
  refine ⟨c, ⟨rfl, ?_, ?_⟩, ?_, rfl⟩
  · intro d hd
    simp only [chunkConst, List.mem_cons, List.mem_replicate] at hd
    omega
  · simp only [chunkConst, Nat.ofDigits_cons]
    rw [show Nat.ofDigits (2 ^ 16) (List.replicate 24 0) = 0 by decide +kernel]
    simp
  · have : 0 < P := P_pos
    omega

theorem lazyTwisted_ok : OpsOk lazyTwisted LTRep where
  blank := by
    refine ⟨OddPt.zero, edZero, ⟨?_, ?_, ?_, ?_⟩, C59_zero _⟩
    · exact (chunkConst_rep 0 (by norm_num)).congr Nat.cast_zero.symm
    · exact (chunkConst_rep 1 (by norm_num)).congr Nat.cast_one.symm
    · exact (chunkConst_rep 1 (by norm_num)).congr Nat.cast_one.symm
    · exact (chunkConst_rep 0 (by norm_num)).congr Nat.cast_zero.symm
  padd := by
    rintro p q A B ⟨hA, u, hp, hu⟩ ⟨hB, v, hq, hv⟩
    exact ⟨hA.add hB, C59_lazy_add p q u v A B hp hq hA hB hu hv⟩
  pdul := by
    rintro p A ⟨hA, u, hp, hu⟩
    exact ⟨hA.add hA, C59_lazy_double p u A hp hA hu⟩
  check := by
    rintro p q A B ⟨hA, u, hp, hu⟩ ⟨hB, v, hq, hv⟩
    unfold paddCheck
    simp only [lazyTwisted, selDec]
    split_ifs with h
    · subst h
      obtain rfl := LRep4.unique hp hq
      obtain rfl := C59_faithful blsTwist C59_constants u u A B hA hB hu hv rfl rfl
      exact ⟨hA.add hA, C59_lazy_double p u A hp hA hu⟩
    · exact ⟨hA.add hB, C59_lazy_add p q u v A B hp hq hA hB hu hv⟩

theorem lazyTwisted_neg (p : Quad (List Nat)) (A : (W1 : WeierstrassCurve.Affine (ZMod P)).Point) (h : LTRep p A) :
    LTRep (lazyTwisted.pneg p) (-A) := by
  obtain ⟨hA, u, hp, hu⟩ := h
  exact ⟨hA.neg, C59_lazy_neg p u A hp hu⟩

/-- Integer coordinates of a point, each at most `p << 16` (in particular canonical ones), as residue classes. -/
def IRep (q : Quad Nat) (u : Quad (ZMod P)) : Prop :=
  (q.1 ≤ 2 ^ 16 * P ∧ q.2.1 ≤ 2 ^ 16 * P ∧ q.2.2.1 ≤ 2 ^ 16 * P ∧ q.2.2.2 ≤ 2 ^ 16 * P) ∧
    u = ((q.1 : ZMod P), (q.2.1 : ZMod P), (q.2.2.1 : ZMod P), (q.2.2.2 : ZMod P))

theorem chunk_room : 2 ^ 16 * P < 2 ^ (16 * 25) := by decide +kernel

theorem packPoint_rep (q : Quad Nat) (u : Quad (ZMod P)) (h : IRep q u) : ∃ p, packPoint q = .ok p ∧ LRep4 p u := by
  obtain ⟨⟨h1, h2, h3, h4⟩, rfl⟩ := h
  have hr := chunk_room
  obtain ⟨x, e1, r1⟩ := intToArray_ok 16 25 q.1 (by norm_num) (by omega)
  obtain ⟨y, e2, r2⟩ := intToArray_ok 16 25 q.2.1 (by norm_num) (by omega)
  obtain ⟨z, e3, r3⟩ := intToArray_ok 16 25 q.2.2.1 (by norm_num) (by omega)
  obtain ⟨t, e4, r4⟩ := intToArray_ok 16 25 q.2.2.2 (by norm_num) (by omega)
  refine ⟨(x, y, z, t), by simp only [packPoint, e1, e2, e3, e4], ⟨_, r1, h1, rfl⟩, ⟨_, r2, h2, rfl⟩, ⟨_, r3, h3, rfl⟩,
    ⟨_, r4, h4, rfl⟩⟩

theorem unpack_LRep {l : List Nat} {x : ZMod P} (h : LRep l x) :
    arrayToInt 16 l ≤ 2 ^ 16 * P ∧ ((arrayToInt 16 l : Nat) : ZMod P) = x := by
  obtain ⟨v, h1, h2, rfl⟩ := h
  rw [arrayToInt_eq _ _ h1.lt, h1.val]
  exact ⟨h2, rfl⟩

theorem unpackPoint_rep {p : Quad (List Nat)} {u : Quad (ZMod P)} (h : LRep4 p u) : IRep (unpackPoint p) u := by
  obtain ⟨a, b, c, d⟩ := h
  have a := unpack_LRep a
  have b := unpack_LRep b
  have c := unpack_LRep c
  have d := unpack_LRep d
  exact ⟨⟨a.1, b.1, c.1, d.1⟩, Prod.ext a.2.symm (Prod.ext b.2.symm (Prod.ext c.2.symm d.2.symm))⟩

theorem mapM_packPoint (points : List (Quad Nat)) (As : List (W1 : WeierstrassCurve.Affine (ZMod P)).Point)
    (h : List.Forall₂ (fun q A => OddPt A ∧ ∃ u, IRep q u ∧ ERep blsTwist u A) points As) :
    ∃ pts, points.mapM packPoint = .ok pts ∧ List.Forall₂ LTRep pts As := by
  induction h with
  | nil => exact ⟨[], rfl, .nil⟩
  | @cons q A l m hq _ ih =>
    obtain ⟨pts, e, hf⟩ := ih
    obtain ⟨hA, u, hi, hu⟩ := hq
    obtain ⟨p, hp, hr⟩ := packPoint_rep q u hi
    refine ⟨p :: pts, ?_, .cons ⟨hA, u, hr, hu⟩ hf⟩
    rw [List.mapM_cons, hp, e]
    rfl

/-- The scalars are in the range of the slices. -/
theorem msmSpec_exact {G : Type} [AddCommGroup G] (m : Int) (cs : List Int) (As : List G) (h : cs.length = As.length)
    (hc : ∀ c ∈ cs, 0 ≤ c ∧ c < m) : msmSpec m cs As = ∑ i ∈ range As.length, cs.getD i 0 • As.getD i 0 := by
  rw [msmSpec_eq _ _ _ h]
  apply sum_congr rfl
  intro i hi
  have hi' : i < cs.length := by rw [h]; simpa using hi
  have := hc cs[i] (List.getElem_mem hi')
  rw [List.getD_eq_getElem cs _ hi', Int.emod_eq_of_lt this.1 this.2]

/-- C60: `MSMPippengerTwisted` on integer coordinates of points of odd order returns integer coordinates of
`∑ k_i A_i`, for every slice length, every parallel factor that divides the number of points, and all scalars below
`2^(slice length * number of windows)` (in particular below `2^254`). -/
theorem C60_twisted (k par : Nat) (hk : 0 < k) (hk' : k ≤ 32) (scalars : List Int) (points : List (Quad Nat))
    (As : List (W1 : WeierstrassCurve.Affine (ZMod P)).Point)
    (hp : List.Forall₂ (fun q A => OddPt A ∧ ∃ u, IRep q u ∧ ERep blsTwist u A) points As)
    (h0 : points ≠ []) (hpar : par ∣ points.length) (hlen : scalars.length = points.length)
    (hs : ∀ c ∈ scalars, 0 ≤ c ∧ c < 2 ^ (k * windowNum k)) :
    ∃ r u, msmTwistedInts k par scalars points = .ok r ∧ IRep r u ∧
      ERep blsTwist u (∑ i ∈ range As.length, scalars.getD i 0 • As.getD i 0) := by
  obtain ⟨pts, e, hf⟩ := mapM_packPoint points As hp
  have hl : pts.length = points.length := by rw [hf.length_eq, hp.length_eq]
  have hsh : shapesOk par pts.length scalars.length = true := by
    have : points.length ≠ 0 := by simpa using h0
    simp [shapesOk, hl, hlen, this, Nat.mod_eq_zero_of_dvd hpar]
  obtain ⟨r, hr, -, u, hu, hU⟩ := msmTwisted_ok lazyTwisted_ok k par hk hk' scalars pts As hf hsh
  refine ⟨unpackPoint r, u, ?_, unpackPoint_rep hu, ?_⟩
  · unfold msmTwistedInts
    rw [e]
    simp only [bind, Except.bind, hr]
  · rwa [msmSpec_exact _ _ _ (by rw [hlen, hp.length_eq]) hs] at hU

/-- Scalars below `2^254` are always in range. -/
theorem C60_range (k : Nat) (hk : 0 < k) : (2 : Int) ^ 254 ≤ 2 ^ (k * windowNum k) := by
  have := le_windowNum k hk
  exact pow_le_pow_right₀ (by norm_num) (by rw [Nat.mul_comm]; exact this)

example := C60_range 13 (by norm_num)

/-- Scalars out of range, negative ones included, are silently reduced modulo `2^(slice length * number of windows)`,
which is not a multiple of the group order: the result is then that of other scalars. -/
theorem C60_out_of_range (k par : Nat) (hk : 0 < k) (hk' : k ≤ 32) (scalars : List Int) (points : List (Quad Nat))
    (As : List (W1 : WeierstrassCurve.Affine (ZMod P)).Point)
    (hp : List.Forall₂ (fun q A => OddPt A ∧ ∃ u, IRep q u ∧ ERep blsTwist u A) points As)
    (h0 : points ≠ []) (hpar : par ∣ points.length) (hlen : scalars.length = points.length) :
    ∃ r u, msmTwistedInts k par scalars points = .ok r ∧ IRep r u ∧
      ERep blsTwist u (∑ i ∈ range As.length, (scalars.getD i 0 % 2 ^ (k * windowNum k)) • As.getD i 0) := by
  obtain ⟨pts, e, hf⟩ := mapM_packPoint points As hp
  have hl : pts.length = points.length := by rw [hf.length_eq, hp.length_eq]
  have hsh : shapesOk par pts.length scalars.length = true := by
    have : points.length ≠ 0 := by simpa using h0
    simp [shapesOk, hl, hlen, this, Nat.mod_eq_zero_of_dvd hpar]
  obtain ⟨r, hr, -, u, hu, hU⟩ := msmTwisted_ok lazyTwisted_ok k par hk hk' scalars pts As hf hsh
  refine ⟨unpackPoint r, u, ?_, unpackPoint_rep hu, ?_⟩
  · unfold msmTwistedInts
    rw [e]
    simp only [bind, Except.bind, hr]
  · rwa [msmSpec_eq _ _ _ (by rw [hlen, hp.length_eq])] at hU

/-- C60 for `MSMPippengerTwistedSigned`: the same for all scalars that the recoding accepts, and `AssertionError` when
some scalar is not accepted (`C62_signed_accepts`). -/
theorem C60_signed (k par : Nat) (hk : 0 < k) (hk' : k ≤ 32) (scalars : List Int) (points : List (Quad Nat))
    (As : List (W1 : WeierstrassCurve.Affine (ZMod P)).Point)
    (hp : List.Forall₂ (fun q A => OddPt A ∧ ∃ u, IRep q u ∧ ERep blsTwist u A) points As)
    (h0 : points ≠ []) (hpar : par ∣ points.length) (hlen : scalars.length = points.length)
    (hs : ∀ c ∈ scalars, 0 ≤ c ∧ c < 2 ^ (k * windowNum k)) :
    ((∀ c ∈ scalars, ∃ d, signedOne k c = .ok d) → ∃ r u, msmTwistedSignedInts k par scalars points = .ok r ∧ IRep r u ∧
      ERep blsTwist u (∑ i ∈ range As.length, scalars.getD i 0 • As.getD i 0)) ∧
    ((∃ c ∈ scalars, signedOne k c = .error "AssertionError") →
      msmTwistedSignedInts k par scalars points = .error "AssertionError") := by
  obtain ⟨pts, e, hf⟩ := mapM_packPoint points As hp
  have hl : pts.length = points.length := by rw [hf.length_eq, hp.length_eq]
  have hsh : shapesOk par pts.length scalars.length = true := by
    have : points.length ≠ 0 := by simpa using h0
    simp [shapesOk, hl, hlen, this, Nat.mod_eq_zero_of_dvd hpar]
  have hcar : ∀ c, (∃ d, signedOne k c = .ok d) → (signedLoop k c (windowNum k) 0 0).2.2 = 0 := by
    rintro c ⟨d, hd⟩
    by_contra h
    simp only [signedOne, if_neg h] at hd
    cases hd
  constructor
  · intro hacc
    obtain ⟨r, hr, -, u, hu, hU⟩ := msmTwistedSigned_ok lazyTwisted_ok lazyTwisted_neg k par hk hk' scalars pts As hf hsh
      (fun c hc => (signedLoop_carry k hk c _).1 (hcar c (hacc c hc)))
    refine ⟨unpackPoint r, u, ?_, unpackPoint_rep hu, ?_⟩
    · unfold msmTwistedSignedInts
      rw [e]
      simp only [bind, Except.bind, hr]
    · rwa [msmSpec_exact _ _ _ (by rw [hlen, hp.length_eq]) hs] at hU
  · rintro ⟨c, hc, hce⟩
    have hne : (signedLoop k c (windowNum k) 0 0).2.2 ≠ 0 := by
      intro h
      simp only [signedOne, if_pos h] at hce
      cases hce
    unfold msmTwistedSignedInts msmTwistedSigned
    rw [e, baSelectionSigned_error k scalars ⟨c, hc, hne⟩]
    rfl

/-- Wrong shapes are refused: no points, a number of points that is not a multiple of the parallel factor, or a
different number of scalars. -/
theorem C60_shapes {α : Type} (o : Ops α) (k par : Nat) (scalars : List Int) (points : List α)
    (h : points = [] ∨ ¬ par ∣ points.length ∨ scalars.length ≠ points.length) :
    msmTwisted o k par scalars points = .error "ValueError" := by
  have : shapesOk par points.length scalars.length = false := by
    unfold shapesOk
    rcases h with rfl | h | h
    · simp
    · have : points.length % par ≠ 0 := fun e => h (Nat.dvd_of_mod_eq_zero e)
      simp [this]
    · simp [Ne.symm h]
  simp [msmTwisted, this]

example := C60_shapes lazyTwisted 4 2 [3, 5, 7] [lazyTwisted.blank, lazyTwisted.blank, lazyTwisted.blank] (Or.inr (Or.inl (by simp)))

/-- End to end for affine points of the Weierstrass curve: twist the coordinates (`twist_int_coordinates`), run the
algorithm, and convert the result with `convert_to_affine`: the affine coordinates of the multi-scalar product. -/
theorem C60_affine (k par : Nat) (hk : 0 < k) (hk' : k ≤ 32) (scalars : List Int) (pts : List (ZMod P × ZMod P))
    (As : List (W1 : WeierstrassCurve.Affine (ZMod P)).Point)
    (hp : List.Forall₂ (fun q A => OddPt A ∧ IsXY A q.1 q.2) pts As)
    (h0 : pts ≠ []) (hpar : par ∣ pts.length) (hlen : scalars.length = pts.length)
    (hs : ∀ c ∈ scalars, 0 ≤ c ∧ c < 2 ^ (k * windowNum k)) (x y : ZMod P)
    (hxy : IsXY (∑ i ∈ range As.length, scalars.getD i 0 • As.getD i 0) x y) :
    ∃ r, msmTwistedInts k par scalars (pts.map fun q =>
        let t := twistIntCoordinates blsTwist q
        (t.1.val, t.2.1.val, t.2.2.1.val, t.2.2.2.val)) = .ok r ∧
      edToAffine blsTwist ((r.1 : ZMod P), (r.2.1 : ZMod P), (r.2.2.1 : ZMod P), (r.2.2.2 : ZMod P)) = (x, y) := by
  have hpos : 0 < P := P_pos
  have : NeZero P := ⟨hpos.ne'⟩
  have hv : ∀ z : ZMod P, z.val ≤ 2 ^ 16 * P := fun z => by have := ZMod.val_lt z; omega
  have hp' : List.Forall₂ (fun q A => OddPt A ∧ ∃ u, IRep q u ∧ ERep blsTwist u A) (pts.map fun q =>
      let t := twistIntCoordinates blsTwist q
      (t.1.val, t.2.1.val, t.2.2.1.val, t.2.2.2.val)) As := by
    rw [List.forall₂_map_left_iff]
    refine hp.imp ?_
    rintro q A ⟨hA, hq⟩
    refine ⟨hA, _, ⟨⟨hv _, hv _, hv _, hv _⟩, rfl⟩, ?_⟩
    have := C65_twist_int_coordinates blsTwist C59_constants q.1 q.2 A hq hA
    simp only [ZMod.natCast_zmod_val]
    exact this
  obtain ⟨r, u, h1, ⟨-, rfl⟩, h3⟩ := C60_twisted k par hk hk' scalars _ As hp' (by simpa using h0) (by simpa using hpar)
    (by simpa using hlen) hs
  exact ⟨r, h1, C65_convert_to_affine blsTwist C59_constants _ x y _ hxy h3⟩

/-! ## C62 -/

/-- C62: the unsigned slices are digits below `2^k` and their weighted sum is the scalar. -/
theorem C62_unsigned (k : Nat) (c : Int) (h0 : 0 ≤ c) (h1 : c < 2 ^ (k * windowNum k)) :
    (∀ w, 0 ≤ slice k c w ∧ slice k c w < 2 ^ k) ∧
      ∑ w ∈ range (windowNum k), 2 ^ (k * w) * slice k c w = c := by
  refine ⟨fun w => ⟨slice_nonneg k c w, slice_lt k c w⟩, ?_⟩
  rw [sum_slice, Int.emod_eq_of_lt h0 h1]

example := C62_unsigned 4 (ORDER - 1) (by decide +kernel) (by decide +kernel)

/-- C62: when the recoding returns, it returns an index and a sign for each window, the encoded digits (index plus one,
negated when the sign is 1) are at most `2^(k-1)` in absolute value, every index other than the marker `-1` for the
digit zero is that of a bucket, and the weighted sum of the digits is the scalar. -/
theorem C62_signed (k : Nat) (hk : 0 < k) (c : Int) (h0 : 0 ≤ c) (h1 : c < 2 ^ (k * windowNum k)) (is ss : List Int)
    (h : signedOne k c = .ok (is, ss)) :
    is.length = windowNum k ∧ ss.length = windowNum k ∧
    (∀ w, w < windowNum k → -1 ≤ is.getD w 0 ∧ is.getD w 0 < 2 ^ (k - 1)) ∧
    ∑ w ∈ range (windowNum k), 2 ^ (k * w) * (if ss.getD w 0 = 1 then -(is.getD w 0 + 1) else is.getD w 0 + 1) = c := by
  obtain ⟨a1, a2, -, -, a5, a6⟩ := signedLoop_spec k hk c (windowNum k) 0 0 le_rfl (by decide)
  unfold signedOne at h
  by_cases hc : (signedLoop k c (windowNum k) 0 0).2.2 = 0
  · simp only [if_pos hc, Except.ok.injEq, Prod.mk.injEq] at h
    obtain ⟨rfl, rfl⟩ := h
    refine ⟨a1, a2, fun w hw => ⟨(a5 w hw).1, (a5 w hw).2.1⟩, ?_⟩
    rw [hc, mul_zero, add_zero] at a6
    simp only [Nat.zero_add] at a6
    rw [sum_slice, add_zero, Int.emod_eq_of_lt h0 h1] at a6
    exact a6
  · simp only [if_neg hc] at h
    cases h

/-- C62: exactly which scalars are accepted: those up to the largest value that the digits can express,
`(2^(k-1) - 1) (1 + 2^k + ... + 2^(k (n-1)))`.  All others raise the assertion. -/
theorem C62_signed_accepts (k : Nat) (hk : 0 < k) (c : Int) (h0 : 0 ≤ c) (h1 : c < 2 ^ (k * windowNum k)) :
    ((∃ d, signedOne k c = .ok d) ↔ (2 ^ k - 1) * c ≤ (2 ^ (k - 1) - 1) * (2 ^ (k * windowNum k) - 1)) ∧
    ((¬ ∃ d, signedOne k c = .ok d) → signedOne k c = .error "AssertionError") := by
  have hc := signedLoop_carry k hk c (windowNum k)
  rw [Int.emod_eq_of_lt h0 h1] at hc
  have hgeo : ∀ n, (2 ^ k - 1) * signedMax k n = (2 ^ (k - 1) - 1) * (2 ^ (k * n) - 1) := by
    intro n
    unfold signedMax
    induction n with
    | zero => simp
    | succ n ih =>
      rw [sum_range_succ, mul_add, ih, Nat.mul_add, Nat.mul_one, pow_add]
      ring
  have hpos : (0 : Int) < 2 ^ k - 1 := by
    have : (2 : Int) ^ 1 ≤ 2 ^ k := pow_le_pow_right₀ (by norm_num) hk
    omega
  rw [← hgeo, mul_le_mul_iff_right₀ hpos, ← hc]
  unfold signedOne
  by_cases h : (signedLoop k c (windowNum k) 0 0).2.2 = 0
  · simp [h]
  · simp [h]

example := C62_signed_accepts 4 (by norm_num) (ORDER - 1) (by decide +kernel) (by decide +kernel)

/-- In particular, for every slice length above 1, every scalar below the group order is accepted. -/
theorem C62_signed_order (k : Nat) (hk : 1 < k) (c : Int) (h0 : 0 ≤ c) (h1 : c < ORDER) :
    ∃ d, signedOne k c = .ok d := by
  have hr := C60_range k (by omega)
  have ho : (3 * ORDER : Int) ≤ 2 ^ 254 - 1 := by decide +kernel
  have hh : (2 : Int) ^ k = 2 * 2 ^ (k - 1) := by rw [← pow_succ']; congr 1; omega
  have h2 : (2 : Int) ^ 1 ≤ 2 ^ (k - 1) := pow_le_pow_right₀ (by norm_num) (by omega)
  refine (C62_signed_accepts k (by omega) c h0 (by omega)).1.2 ?_
  rw [hh]
  generalize (2 : Int) ^ (k - 1) = a at *
  generalize (2 : Int) ^ (k * windowNum k) = b at *
  nlinarith

/-- For slice length 1 only the scalar zero is accepted (the digits are then `0` and `-1`). -/
theorem C62_signed_one (c : Int) (h0 : 0 ≤ c) (h1 : c < 2 ^ 254) : (∃ d, signedOne 1 c = .ok d) ↔ c = 0 := by
  have := (C62_signed_accepts 1 (by omega) c h0 (by simpa [windowNum] using h1)).1
  rw [this]
  norm_num
  omega

/-! ## Non-vacuity -/

/-- The hypotheses of `C60_affine`, and by the conversion of C65 those of `C60_twisted`, `C60_out_of_range` and `C60_signed`, are met by the generator and its double, with scalars 3 and 5:
the parallel factor 2 divides the number of points. -/
example : ∃ (pts : List (ZMod P × ZMod P)) (As : List (W1 : WeierstrassCurve.Affine (ZMod P)).Point),
    List.Forall₂ (fun q A => OddPt A ∧ IsXY A q.1 q.2) pts As ∧ pts ≠ [] ∧ 2 ∣ pts.length ∧ [3, 5].length = pts.length ∧
    (∀ c ∈ [3, (5 : Int)], 0 ≤ c ∧ c < 2 ^ (4 * windowNum 4)) ∧ ∀ A ∈ As, A ≠ 0 := by
  obtain ⟨G, hG, -, h⟩ := C59_subgroup
  have h1 := h 1
  have h2 := h 2
  rw [one_nsmul] at h1
  rw [two_nsmul] at h2
  have hG2 := hG.double (by decide +kernel)
  refine ⟨[(_, _), (_, _)], [G, G + G], .cons ⟨h1, hG⟩ (.cons ⟨h2, hG2⟩ .nil), by simp, by simp, rfl, ?_, ?_⟩
  · intro c hc
    have : (2 : Int) ^ 4 ≤ 2 ^ (4 * windowNum 4) := pow_le_pow_right₀ (by norm_num) (by decide)
    simp at hc
    omega
  · intro A hA
    simp at hA
    rcases hA with rfl | rfl
    · exact hG.ne_zero
    · exact hG2.ne_zero

/-- A scalar that the signed recoding accepts: hypotheses of `C62_signed`. -/
example : ∃ d, signedOne 4 (ORDER - 1) = .ok d := C62_signed_order 4 (by norm_num) _ (by decide +kernel) (by omega)

end Verif.Props
