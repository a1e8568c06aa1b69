import Verif.Lemmas.PippengerArrMsm
import Verif.Props.PippengerRns

/-!
# C83: the array programs of the multi-scalar multiplication
-/

namespace Verif.Props

open Verif.EcCurve Verif.EcChunks Verif.EcBatch Verif.Pippenger Verif.PippengerArr Finset
open Verif.EcRns (Pt MODULI FloatRound constructMatrix)

attribute [local irreducible] P TWIST_D

/-! ### Conversions -/

theorem conv_packPoint (q : Quad Nat) : intListToArray 16 25 (coords q) = (packPoint q).map coordsA := by
  obtain ⟨x, y, z, t⟩ := q
  unfold packPoint coords intListToArray
  simp only [List.mapM_cons, List.mapM_nil, intToArrayZ, Int.toNat_natCast]
  cases intToArray 16 (some 25) x <;> cases intToArray 16 (some 25) y <;> cases intToArray 16 (some 25) z <;>
    cases intToArray 16 (some 25) t <;> rfl

theorem packPoint_chunks {q : Quad Nat} {p : Quad (List Nat)} (h : packPoint q = .ok p) : Chunks 25 p := by
  have hl : ∀ {x : Nat} {l : List Nat}, intToArray 16 (some 25) x = .ok l → l.length = 25 := by
    intro x l h
    unfold intToArray at h
    simp only at h
    split at h
    · cases h
      simp
      omega
    · cases h
  unfold packPoint at h
  split at h
  · next h1 h2 h3 h4 =>
    cases h
    exact ⟨hl h1, hl h2, hl h3, hl h4⟩
  · cases h

theorem mapM_conv {β : Type} (f : β → List Int) (g : β → Quad Nat) (hfg : ∀ b, intListToArray 16 25 (f b) = (packPoint (g b)).map coordsA)
    (l : List β) : (∃ pts, l.mapM (fun b => packPoint (g b)) = .ok pts ∧ l.mapM (fun b => intListToArray 16 25 (f b)) =
        .ok (firstOf pts) ∧ (∀ q ∈ pts, Chunks 25 q) ∧ pts.length = l.length) ∨
      (l.mapM (fun b => packPoint (g b)) = .error "AssertionError" ∧
        l.mapM (fun b => intListToArray 16 25 (f b)) = .error "AssertionError") := by
  induction l with
  | nil => exact .inl ⟨[], rfl, rfl, by simp, rfl⟩
  | cons b l ih =>
    rw [List.mapM_cons, List.mapM_cons, hfg]
    cases h : packPoint (g b) with
    | error e =>
      right
      have : e = "AssertionError" := by
        unfold packPoint at h
        split at h <;> cases h
        rfl
      subst this
      exact ⟨rfl, rfl⟩
    | ok p =>
      rcases ih with ⟨pts, h1, h2, h3, h4⟩ | ⟨h1, h2⟩
      · left
        refine ⟨p :: pts, ?_, ?_, ?_, by simp [h4]⟩
        · rw [h1]
          rfl
        · rw [h2]
          rfl
        · intro q hq
          rcases List.mem_cons.1 hq with rfl | hq
          · exact packPoint_chunks h
          · exact h3 q hq
      · right
        rw [h1, h2]
        exact ⟨rfl, rfl⟩

theorem arrayToIntList_coordsA (p : Quad (List Nat)) : arrayToIntList 16 (coordsA p) = coordsN (unpackPoint p) := rfl

/-! ### The classes compute what the algorithms on points compute -/

/-- C83: `MSMPippengerTwisted` with its reshapes, transpositions, broadcasts, gathers, scatters and scans computes, for
all scalars and all points, the result of the algorithm on lists of points, errors included. -/
theorem C83_twisted (k par : Nat) (hk : 0 < k) (hk' : k ≤ 31) (scalars : List Int) (points : List (Quad Nat)) :
    msmTwistedIntsA k par scalars (points.map coords) = (msmTwistedInts k par scalars points).map coordsN := by
  unfold msmTwistedIntsA msmTwistedInts
  rcases mapM_conv coords id conv_packPoint points with ⟨pts, h1, h2, h3, -⟩ | ⟨h1, h2⟩
  · rw [lazyTwisted_pw.msmTwisted _ (by decide +kernel) (points.map coords) pts
      (by rw [List.mapM_map]; exact h2) h3 k par hk hk' scalars]
    simp only [id] at h1
    rw [h1]
    show _ = Except.map coordsN (msmTwisted lazyTwisted k par scalars pts >>= _)
    cases msmTwisted lazyTwisted k par scalars pts <;> rfl
  · simp only [id] at h1
    rw [h1]
    unfold msmTwistedA
    simp only
    rw [show (points.map coords).mapM (intListToArray 16 25) = .error "AssertionError" by rw [List.mapM_map]; exact h2,
      show intListToArray 16 25 [0, 1, 1, 0] = .ok (coordsA lazyTwisted.blank) by decide +kernel]
    rfl

example := C83_twisted 4 2 (by norm_num) (by norm_num) [3, 5] [(1, 2, 3, 4), (5, 6, 7, 8)]

/-- C83 for `MSMPippengerTwistedSigned`.  (Without points the array program fails with `ValueError` before the recoding
can fail.) -/
theorem C83_signed (k par : Nat) (hk : 0 < k) (hk' : k ≤ 32) (scalars : List Int) (points : List (Quad Nat))
    (h0 : points ≠ []) :
    msmTwistedSignedIntsA k par scalars (points.map coords) = (msmTwistedSignedInts k par scalars points).map coordsN := by
  unfold msmTwistedSignedIntsA msmTwistedSignedInts
  rcases mapM_conv coords id conv_packPoint points with ⟨pts, h1, h2, h3, h4⟩ | ⟨h1, h2⟩
  · rw [lazyTwisted_pw.msmTwistedSigned _ (by decide +kernel) (points.map coords) pts
      (by rw [List.mapM_map]; exact h2) h3 (by rintro rfl; exact h0 (List.length_eq_zero_iff.1 h4.symm)) k par hk hk'
      scalars]
    simp only [id] at h1
    rw [h1]
    show _ = Except.map coordsN (msmTwistedSigned lazyTwisted k par scalars pts >>= _)
    cases msmTwistedSigned lazyTwisted k par scalars pts <;> rfl
  · simp only [id] at h1
    rw [h1]
    unfold msmTwistedSignedA
    simp only
    rw [show (points.map coords).mapM (intListToArray 16 25) = .error "AssertionError" by rw [List.mapM_map]; exact h2,
      show intListToArray 16 25 [0, 1, 1, 0] = .ok (coordsA lazyTwisted.blank) by decide +kernel]
    rfl

example := C83_signed 4 2 (by norm_num) (by norm_num) [3, 5] [(1, 2, 3, 4), (5, 6, 7, 8)] (by simp)

/-- C83 for `MSMPippenger`, whose points are given by two affine coordinates. -/
theorem C83_xyzz (k : Nat) (hk : 0 < k) (hk' : k ≤ 32) (scalars : List Int) (points : List (Nat × Nat)) :
    msmXyzzIntsA k scalars (points.map fun q => [(q.1 : Int), (q.2 : Int)]) =
      (msmXyzzInts k scalars points).map coordsN := by
  unfold msmXyzzIntsA msmXyzzInts
  rcases mapM_conv (fun q : Nat × Nat => [(q.1 : Int), (q.2 : Int)] ++ [1, 1]) (fun q => (q.1, q.2, 1, 1))
    (fun q => conv_packPoint (q.1, q.2, 1, 1)) points with ⟨pts, h1, h2, h3, h4⟩ | ⟨h1, h2⟩
  · rw [lazyXyzz_pw.msmXyzz _ (by decide +kernel) (points.map fun q => [(q.1 : Int), (q.2 : Int)]) pts
      (by rw [List.mapM_map]; exact h2) h3 k hk hk' scalars, h1]
    show _ = Except.map coordsN (msmXyzz lazyXyzz k scalars pts >>= _)
    cases msmXyzz lazyXyzz k scalars pts <;> rfl
  · rw [h1]
    unfold msmXyzzA
    simp only
    rw [show ((points.map fun q => [(q.1 : Int), (q.2 : Int)]).mapM fun c => intListToArray 16 25 (c ++ [1, 1])) =
        .error "AssertionError" by rw [List.mapM_map]; exact h2,
      show intListToArray 16 25 [0, 0, 0, 0] = .ok (coordsA lazyXyzz.blank) by decide +kernel]
    rfl

example := C83_xyzz 4 (by norm_num) (by norm_num) [3, 5] [(1, 2), (5, 6)]

/-- The residue vectors of the coordinates of a point. -/
def rnsPoint (q : Quad Int) : Pt :=
  (EcBatch.intToArrayRns q.1, EcBatch.intToArrayRns q.2.1, EcBatch.intToArrayRns q.2.2.1, EcBatch.intToArrayRns q.2.2.2)

/-- C83 for the two classes of pippenger_rns.py, whatever the reduction matrix is: for points given by integers the arrays
returned hold the four coordinates that the algorithm on points computes. -/
theorem C83_rns (mat : Mat) (k par : Nat) (hk : 0 < k) (hk' : k ≤ 31) (scalars : List Int) (points : List (Quad Int))
    (affine : List (Int × Int)) :
    msmTwistedA (rnsTwistedPacks mat) (fun l => .ok (intListToArrayRns l)) k par scalars
        (points.map fun q => [q.1, q.2.1, q.2.2.1, q.2.2.2]) =
      (msmTwisted (rnsTwisted mat) k par scalars (points.map rnsPoint)).map coordsA ∧
    msmXyzzA (rnsXyzzPacks mat) (fun l => .ok (intListToArrayRns l)) k scalars (affine.map fun q => [q.1, q.2]) =
      (msmXyzz (rnsXyzz mat) k scalars (affine.map fun q => rnsPoint (q.1, q.2, 1, 1))).map coordsA := by
  have hm : ∀ {β : Type} (f : β → Arr2) (l : List β), l.mapM (fun b => (Except.ok (f b) : Except String Arr2)) =
      .ok (l.map f) := by
    intro β f l
    induction l with
    | nil => rfl
    | cons b l ih =>
      rw [List.mapM_cons, ih]
      rfl
  have e1 : (Except.ok (intListToArrayRns [0, 1, 1, 0]) : Except String Arr2) = .ok (coordsA (rnsTwisted mat).blank) := by
    show (Except.ok _ : Except String Arr2) = .ok (coordsA (rnsSmall 0, rnsSmall 1, rnsSmall 1, rnsSmall 0))
    decide +kernel
  have e2 : (Except.ok (intListToArrayRns [0, 0, 0, 0]) : Except String Arr2) = .ok (coordsA (rnsXyzz mat).blank) := by
    show (Except.ok _ : Except String Arr2) = .ok (coordsA (rnsSmall 0, rnsSmall 0, rnsSmall 0, rnsSmall 0))
    decide +kernel
  constructor
  · refine (rnsTwisted_pw mat).msmTwisted (fun l => .ok (intListToArrayRns l)) e1 _ _ ?_ (fun _ _ => trivial) k par hk hk' scalars
    rw [List.mapM_map]
    refine (hm _ points).trans ?_
    simp [firstOf, rnsPoint, intListToArrayRns]
  · refine (rnsXyzz_pw mat).msmXyzz (fun l => .ok (intListToArrayRns l)) e2 _ _ ?_ (fun _ _ => trivial) k hk (by omega) scalars
    rw [List.mapM_map]
    refine (hm _ affine).trans ?_
    simp [firstOf, rnsPoint, intListToArrayRns]

example (mat : Mat) := C83_rns mat 4 2 (by norm_num) (by norm_num) [3, 5] [(1, 2, 3, -4), (5, 6, 7, 8)] [(1, 2), (5, 6)]

/-! ### What is computed -/

/-- C83: `MSMPippengerTwisted`, as written, computes `Σ kᵢ Pᵢ`: for points of odd order on the twisted curve and
scalars in range the four integers read from the result are coordinates of the sum. -/
theorem C83_twisted_sum (k par : Nat) (hk : 0 < k) (hk' : k ≤ 31) (scalars : List Int) (points : List (Quad Nat))
    (As : List (W1 : WeierstrassCurve.Affine (ZMod P)).Point)
    (hp : List.Forall₂ (fun q A => OddPt A ∧ ∃ u, IRep q u ∧ ERep blsTwist u A) points As)
    (h0 : points ≠ []) (hpar : par ∣ points.length) (hlen : scalars.length = points.length)
    (hs : ∀ c ∈ scalars, 0 ≤ c ∧ c < 2 ^ (k * windowNum k)) :
    ∃ r u, msmTwistedIntsA k par scalars (points.map coords) = .ok (coordsN r) ∧ IRep r u ∧
      ERep blsTwist u (∑ i ∈ range As.length, scalars.getD i 0 • As.getD i 0) := by
  obtain ⟨r, u, h1, h2, h3⟩ := C60_twisted k par hk (by omega) scalars points As hp h0 hpar hlen hs
  exact ⟨r, u, by rw [C83_twisted k par hk hk', h1]; rfl, h2, h3⟩

/-- C83 for `MSMPippengerTwistedSigned`: the same, or `AssertionError` when the recoding of a scalar overflows. -/
theorem C83_signed_sum (k par : Nat) (hk : 0 < k) (hk' : k ≤ 32) (scalars : List Int) (points : List (Quad Nat))
    (As : List (W1 : WeierstrassCurve.Affine (ZMod P)).Point)
    (hp : List.Forall₂ (fun q A => OddPt A ∧ ∃ u, IRep q u ∧ ERep blsTwist u A) points As)
    (h0 : points ≠ []) (hpar : par ∣ points.length) (hlen : scalars.length = points.length)
    (hs : ∀ c ∈ scalars, 0 ≤ c ∧ c < 2 ^ (k * windowNum k)) :
    ((∀ c ∈ scalars, ∃ d, signedOne k c = .ok d) → ∃ r u,
      msmTwistedSignedIntsA k par scalars (points.map coords) = .ok (coordsN r) ∧ IRep r u ∧
      ERep blsTwist u (∑ i ∈ range As.length, scalars.getD i 0 • As.getD i 0)) ∧
    ((∃ c ∈ scalars, signedOne k c = .error "AssertionError") →
      msmTwistedSignedIntsA k par scalars (points.map coords) = .error "AssertionError") := by
  obtain ⟨h1, h2⟩ := C60_signed k par hk hk' scalars points As hp h0 hpar hlen hs
  rw [C83_signed k par hk hk' scalars points h0]
  refine ⟨fun h => ?_, fun h => by rw [h2 h]; rfl⟩
  obtain ⟨r, u, e, h3, h4⟩ := h1 h
  exact ⟨r, u, by rw [e]; rfl, h3, h4⟩

/-- C83: `MSMPippenger`, as written, returns `ZZ` divisible by the prime, hence no point, for all points when the
scalars do not reach the top window (C61). -/
theorem C83_xyzz_small_scalars (k : Nat) (hk : 0 < k) (hk' : k ≤ 32) (scalars : List Int) (points : List (Nat × Nat))
    (hp : ∀ q ∈ points, q.1 ≤ 2 ^ 16 * P ∧ q.2 ≤ 2 ^ 16 * P) (h0 : points ≠ []) (hlen : scalars.length = points.length)
    (hs : ∀ c ∈ scalars, 0 ≤ c ∧ c < 2 ^ (k * (windowNum k - 1))) :
    ∃ r, msmXyzzIntsA k scalars (points.map fun q => [(q.1 : Int), (q.2 : Int)]) = .ok r ∧ r.getD 2 0 % P = 0 := by
  obtain ⟨r, h1, h2⟩ := C61_small_scalars k hk scalars points hp h0 hlen hs
  exact ⟨coordsN r, by rw [C83_xyzz k hk hk', h1]; rfl, h2⟩

example := C83_xyzz_small_scalars 4 (by norm_num) (by norm_num) [3, 5] [(GEN_X, GEN_Y), (2, 3)] (by decide +kernel) (by simp) (by simp)
  (by decide +kernel)

/-! ### Residue vectors, from integers to integers -/

section
open Verif.EcRns
attribute [local irreducible] MODULI BIGM

theorem arrayRnsToInt_ok {l : List Nat} {v : Int} (h : IsRns l v) (h0 : 0 ≤ v) (h1 : v < BIGM) :
    arrayRnsToInt l = .ok v := by
  have hl : (l.map fun x : Nat => (x : Int)).length = MODULI.length := by rw [List.length_map, h.len, MODULI_len]
  obtain ⟨pre, r, e1, e2, r0, r1, hr⟩ := C35_ec_reconstruct (l.map fun x : Nat => (x : Int)) MODULI hl MODULI_co MODULI_pos
  have hB : (BIGM : Nat) = MODULI.prod := by rw [BIGM_eq, Crt.product_eq]
  have hrv : r = v := by
    refine IsRns.unique (l := l) ⟨h.len, h.lt, fun i hi => ?_⟩ h ⟨r0, by rw [hB]; exact r1⟩ ⟨h0, h1⟩
    have hi' : i < MODULI.length := by rw [ MODULI_len]; exact hi
    have := hr i hi'
    rw [List.getElem_map] at this
    rw [List.getD_eq_getElem _ _ hi', List.getD_eq_getElem _ _ (by rw [h.len]; exact hi)]
    exact this.symm
  unfold arrayRnsToInt
  rw [e1, ← hrv]
  exact e2

theorem intToArrayRns_rep (x : Int) (h0 : 0 ≤ x) (h1 : x ≤ 51000 * P) : RRep 51000 (EcBatch.intToArrayRns x) (x : ZMod P) := by
  lift x to Nat using h0
  refine ⟨x, ?_, by omega, h1, rfl⟩
  have e : EcBatch.intToArrayRns (x : Int) = MODULI.map fun m => x % m := by
    unfold EcBatch.intToArrayRns
    apply List.map_congr_left
    intro m _
    rw [← Int.natCast_emod, Int.toNat_natCast]
  rw [e]
  exact isRns_toRns x

/-- Integer coordinates of a point, at most `51000 p`. -/
def ZRep (q : Quad Int) (u : Quad (ZMod P)) : Prop :=
  (∀ c ∈ [q.1, q.2.1, q.2.2.1, q.2.2.2], 0 ≤ c ∧ c ≤ 51000 * P) ∧
    u = ((q.1 : ZMod P), (q.2.1 : ZMod P), (q.2.2.1 : ZMod P), (q.2.2.2 : ZMod P))

theorem rnsPoint_rep {q : Quad Int} {u : Quad (ZMod P)} (h : ZRep q u) : RRep4 51000 (rnsPoint q) u := by
  obtain ⟨h, rfl⟩ := h
  refine ⟨intToArrayRns_rep _ ?_ ?_, intToArrayRns_rep _ ?_ ?_, intToArrayRns_rep _ ?_ ?_, intToArrayRns_rep _ ?_ ?_⟩
  all_goals first | exact (h _ (by simp)).1 | exact (h _ (by simp)).2

theorem arrayRnsToIntList_rep {p : Pt} {u : Quad (ZMod P)} (h : RRep4 51000 p u) :
    ∃ q, arrayRnsToIntList (coordsA p) = .ok [q.1, q.2.1, q.2.2.1, q.2.2.2] ∧ ZRep q u := by
  obtain ⟨x, y, z, t⟩ := p
  obtain ⟨a, b, c, d⟩ := u
  obtain ⟨⟨v1, i1, n1, m1, e1⟩, ⟨v2, i2, n2, m2, e2⟩, ⟨v3, i3, n3, m3, e3⟩, ⟨v4, i4, n4, m4, e4⟩⟩ := h
  have hb : (51000 * P : Int) < BIGM := by exact_mod_cast BIGM_51000
  push_cast at m1 m2 m3 m4
  refine ⟨(v1, v2, v3, v4), ?_, ?_, ?_⟩
  · show [x, y, z, t].mapM arrayRnsToInt = _
    simp only at i1 i2 i3 i4
    rw [List.mapM_cons, List.mapM_cons, List.mapM_cons, List.mapM_cons, arrayRnsToInt_ok i1 n1 (by omega),
      arrayRnsToInt_ok i2 n2 (by omega), arrayRnsToInt_ok i3 n3 (by omega), arrayRnsToInt_ok i4 n4 (by omega)]
    rfl
  · intro c hc
    simp only [List.mem_cons, List.not_mem_nil, or_false] at hc
    rcases hc with rfl | rfl | rfl | rfl
    · exact ⟨n1, m1⟩
    · exact ⟨n2, m2⟩
    · exact ⟨n3, m3⟩
    · exact ⟨n4, m4⟩
  · simp only at e1 e2 e3 e4
    rw [← e1, ← e2, ← e3, ← e4]

/-- C83 for `MSMPippengerTwisted` of pippenger_rns.py, as written, from integers to integers: the four integers returned
are coordinates of `Σ kᵢ Pᵢ` for all runs that stay in the domains of the negations (`checkedRns`, C60).  Missing: the
runs that leave these domains. -/
theorem C83_rns_sum_partial (rd : ℚ → ℚ) (hrd : FloatRound rd) (mat : Mat)
    (hm : constructMatrix rd P = .ok mat) (k par : Nat) (hk : 0 < k) (hk' : k ≤ 31) (scalars : List Int)
    (points : List (Quad Int)) (As : List (W1 : WeierstrassCurve.Affine (ZMod P)).Point)
    (hp : List.Forall₂ (fun q A => OddPt A ∧ ∃ u, ZRep q u ∧ ERep blsTwist u A) points As)
    (hlen : scalars.length = points.length) (hs : ∀ c ∈ scalars, 0 ≤ c ∧ c < 2 ^ (k * windowNum k)) (r : Pt)
    (hrun : msmTwisted (checkedRns mat) k par scalars (points.map fun q => (rnsPoint q, true)) = .ok (r, true)) :
    ∃ q u, msmTwistedRnsA mat k par scalars (points.map fun q => [q.1, q.2.1, q.2.2.1, q.2.2.2]) =
        .ok [q.1, q.2.1, q.2.2.1, q.2.2.2] ∧ ZRep q u ∧
      ERep blsTwist u (∑ i ∈ Finset.range As.length, scalars.getD i 0 • As.getD i 0) := by
  have hp' : List.Forall₂ RTRep (points.map rnsPoint) As := by
    rw [List.forall₂_map_left_iff]
    exact hp.imp fun q A ⟨h, u, h1, h2⟩ => ⟨h, u, rnsPoint_rep h1, h2⟩
  obtain ⟨h1, -, u, h2, h3⟩ := C60_rns_partial rd hrd mat hm k par hk (by omega) scalars (points.map rnsPoint) As hp'
    (by rw [List.length_map]; exact hlen) hs r (by rw [List.map_map]; exact hrun)
  obtain ⟨q, e, hq⟩ := arrayRnsToIntList_rep h2
  refine ⟨q, u, ?_, hq, h3⟩
  unfold msmTwistedRnsA
  rw [(C83_rns mat k par hk hk' scalars points []).1, h1]
  exact e

end

/-! ### Rejected shapes -/

/-- C83: the twisted class raises, instead of computing something, when the numbers of points and scalars differ, when
one of them is zero, or when `point_parallel` is zero or does not divide the number of points. -/
theorem C83_rejects (k par : Nat) (hk : 0 < k) (hk' : k ≤ 31) (scalars : List Int) (points : List (Quad Nat))
    (h : points.length ≠ scalars.length ∨ points = [] ∨ par = 0 ∨ ¬ par ∣ points.length) :
    ∃ e, msmTwistedIntsA k par scalars (points.map coords) = .error e := by
  rw [C83_twisted k par hk hk']
  rcases mapM_conv coords id conv_packPoint points with ⟨pts, h1, -, -, h4⟩ | ⟨h1, -⟩
  · simp only [id] at h1
    have hb : shapesOk par pts.length scalars.length = false := by
      rw [h4]
      rcases h with h | h | h | h
      · simp [shapesOk, h]
      · simp [shapesOk, h]
      · rcases Nat.eq_zero_or_pos points.length with h' | h'
        · simp [shapesOk, h']
        · simp [shapesOk, h, Nat.ne_of_gt h']
      · have : points.length % par ≠ 0 := fun e => h (Nat.dvd_of_mod_eq_zero e)
        simp [shapesOk, this]
    refine ⟨"ValueError", ?_⟩
    unfold msmTwistedInts
    rw [h1]
    show Except.map coordsN (msmTwisted lazyTwisted k par scalars pts >>= _) = _
    unfold msmTwisted
    rw [hb]
    rfl
  · simp only [id] at h1
    refine ⟨"AssertionError", ?_⟩
    unfold msmTwistedInts
    rw [h1]
    rfl

example := C83_rejects 4 2 (by norm_num) (by norm_num) [3, 5, 7] [(1, 2, 3, 4), (5, 6, 7, 8), (5, 6, 7, 8)] (by decide)

/-! ### The variants of the steps -/

/-- The shapes with which `MSMPippenger` calls its steps: a bucket table of `windows` rows of `2^k` points and a list of
points, all of 25 chunks. -/
structure XShape (k : Nat) (b : List (List (Quad (List Nat)))) (pts : List (Quad (List Nat))) (scalars : List Int) :
    Prop where
  rows : b.length = windowNum k
  cols : ∀ r ∈ b, r.length = 2 ^ k
  buckets : ∀ r ∈ b, ∀ q ∈ r, Chunks 25 q
  points : ∀ q ∈ pts, Chunks 25 q
  length : scalars.length = pts.length

/-- C83: the scan versions and the loop versions of bucket accumulation, bucket reduction and window merge return equal
arrays, and they all succeed. -/
theorem C83_scan_loop (k : Nat) (hk : 0 < k) (scalars : List Int) (b : List (List (Quad (List Nat))))
    (pts : List (Quad (List Nat))) (h : XShape k b pts scalars) :
    let z := zeroStates k scalars
    let blank := coordsA lazyXyzz.blank
    let fz := brZeroA (windowNum k) (2 ^ k) (z.getD scalars.length [])
    ∃ b' w r,
      baXyzzA lazyXyzzPacks pts.length (pack4 b) (firstOf pts) (xyzzSelection k scalars) (z.take pts.length) = .ok b' ∧
      baXyzzLoopA lazyXyzzPacks pts.length (pack4 b) (firstOf pts) (xyzzSelection k scalars) (z.take pts.length) = .ok b' ∧
      brXyzzA lazyXyzzPacks (2 ^ k) b' (bcastBlank blank (windowNum k)) (bcastBlank blank (windowNum k))
        (fz.1.take (2 ^ k)) (fz.2.1.take (2 ^ k)) (fz.2.2.take (2 ^ k)) = .ok w ∧
      brXyzzLoopA lazyXyzzPacks (2 ^ k) b' (bcastBlank blank (windowNum k)) (bcastBlank blank (windowNum k))
        (fz.1.take (2 ^ k)) (fz.2.1.take (2 ^ k)) (fz.2.2.take (2 ^ k)) = .ok w ∧
      windowMergeA lazyXyzzPacks k w = .ok r ∧ windowMergeLoopA lazyXyzzPacks k w = .ok r := by
  intro z blank fz
  have hwn := windowNum_pos k hk
  have hzl := zeroStates_length k scalars
  have hzs := zeroStates_spec k scalars
  have hzm : ∀ r ∈ z.take pts.length, r.length = windowNum k := by
    intro r hr
    obtain ⟨t, ht, rfl⟩ := List.getElem_of_mem (List.mem_of_mem_take hr)
    have := (hzs t (by change t < (zeroStates k scalars).length at ht; omega)).1
    rwa [PippengerArr.getD_lt _ _ _ ht] at this
  obtain ⟨h1, h1', h2⟩ := lazyXyzz_pw.xBa (Nat.two_pow_pos k) ⟨h.rows, h.cols, h.buckets⟩ pts h.points
    (xyzzSelection k scalars) (by simp [xyzzSelection, h.length]) (by
      intro r hr
      obtain ⟨c, -, rfl⟩ := List.mem_map.1 hr
      simp) (z.take pts.length) (by rw [List.length_take, hzl, h.length]; omega) hzm
  have hlast := hzs scalars.length le_rfl
  obtain ⟨h3, h3', h4⟩ := lazyXyzz_pw.xBr hwn (Nat.two_pow_pos k) h2 (z.getD scalars.length []) hlast.1 (by
    intro r hr
    obtain ⟨t, ht, rfl⟩ := List.getElem_of_mem hr
    have := (hlast.2 t (by rwa [hlast.1] at ht)).1
    rwa [PippengerArr.getD_lt _ _ _ ht] at this)
  have hne : ((List.range (windowNum k)).map fun w => xReduce lazyXyzz ((xAccumulate lazyXyzz b pts
      (xyzzSelection k scalars) (z.take pts.length)).getD w []) (brZero ((z.getD scalars.length []).getD w []))) ≠ [] := by
    intro h
    have := congrArg List.length h
    simp at this
    omega
  have hall : ∀ q ∈ ((List.range (windowNum k)).map fun w => xReduce lazyXyzz ((xAccumulate lazyXyzz b pts
      (xyzzSelection k scalars) (z.take pts.length)).getD w []) (brZero ((z.getD scalars.length []).getD w []))),
      Chunks 25 q := by
    intro q hq
    obtain ⟨w, hw, rfl⟩ := List.mem_map.1 hq
    exact h4 w (List.mem_range.1 hw)
  exact ⟨_, _, _, h1, h1', h3, h3', (lazyXyzz_pw.merge k _ hne hall).1, lazyXyzz_pw.mergeLoop k _ hne hall⟩

/-- C83: the masked bucket accumulations, which keep all buckets in one axis, fill the buckets like the indexed
accumulations that the class uses, starting from the blank buckets. -/
theorem C83_mask (k : Nat) (hk : 0 < k) (scalars : List Int) (pts : List (Quad (List Nat))) (hpts : ∀ q ∈ pts, Chunks 25 q)
    (hlen : scalars.length = pts.length) :
    let z := (zeroStates k scalars).take pts.length
    let blanks := List.replicate (windowNum k) (List.replicate (2 ^ k) lazyXyzz.blank)
    ∃ b : List (List (Quad (List Nat))),
      baXyzzA lazyXyzzPacks pts.length (pack4 blanks) (firstOf pts) (xyzzSelection k scalars) z = .ok (pack4 b) ∧
      baMaskA lazyXyzzPacks pts.length (packOf blanks.flatten) (firstOf pts) ((xyzzMask k scalars).map List.flatten)
        (z.map List.flatten) = .ok (packOf b.flatten) ∧
      baMaskLoopA lazyXyzzPacks pts.length (packOf blanks.flatten) (firstOf pts) ((xyzzMask k scalars).map List.flatten)
        (z.map List.flatten) = .ok (packOf b.flatten) := by
  intro z blanks
  have hwn := windowNum_pos k hk
  have hzl := zeroStates_length k scalars
  have hzs := zeroStates_spec k scalars
  have htab : Tab (Chunks 25) (windowNum k) (2 ^ k) blanks :=
    Tab.replicate (windowNum k) (2 ^ k) lazyXyzz.blank lazyXyzz_pw.blank
  have hzlen : z.length = pts.length := by
    show ((zeroStates k scalars).take pts.length).length = _
    rw [List.length_take, hzl, hlen]
    omega
  have hzm : ∀ r ∈ z, r.length = windowNum k ∧ ∀ t ∈ r, t.length = 2 ^ k := by
    intro r hr
    obtain ⟨t, ht, rfl⟩ := List.getElem_of_mem (List.mem_of_mem_take hr)
    have := hzs t (by change t < (zeroStates k scalars).length at ht; omega)
    rw [PippengerArr.getD_lt _ _ _ ht] at this
    refine ⟨this.1, ?_⟩
    intro s hs
    obtain ⟨w, hw, rfl⟩ := List.getElem_of_mem hs
    have := (this.2 w (by rwa [this.1] at hw)).1
    rwa [PippengerArr.getD_lt _ _ _ hw] at this
  obtain ⟨h1, -, -⟩ := lazyXyzz_pw.xBa (Nat.two_pow_pos k) htab pts hpts
    (xyzzSelection k scalars) (by simp [xyzzSelection, hlen]) (by
      intro r hr
      obtain ⟨c, -, rfl⟩ := List.mem_map.1 hr
      simp) z hzlen (fun r hr => (hzm r hr).1)
  obtain ⟨h2, h3⟩ := lazyXyzz_pw.mask htab pts hpts (xyzzMask k scalars) z (by simp [xyzzMask, hlen]) (by
    intro r hr
    obtain ⟨c, -, rfl⟩ := List.mem_map.1 hr
    refine ⟨by simp, ?_⟩
    intro t ht
    obtain ⟨w, -, rfl⟩ := List.mem_map.1 ht
    simp) hzlen hzm
  have e : xAccumulateMask lazyXyzz blanks pts (xyzzMask k scalars) z =
      xAccumulate lazyXyzz blanks pts (xyzzSelection k scalars) z := by
    refine xAccumulateMask_eq lazyXyzz k scalars pts _ hlen (fun i hi => ?_) _ (by simp [blanks]) ?_
    · have hi' : i < z.length := by omega
      rw [PippengerArr.getD_lt _ _ _ hi']
      have := hzm _ (List.getElem_mem hi')
      refine ⟨this.1, fun w hw => ?_⟩
      rw [PippengerArr.getD_lt _ _ _ (by rw [this.1]; exact hw)]
      exact this.2 _ (List.getElem_mem _)
    · intro w hw
      rw [PippengerArr.getD_lt _ _ _ (by simpa [blanks] using hw)]
      simp [blanks]
  rw [e] at h2 h3
  exact ⟨_, h1, h2, h3⟩

/-! ### The hypotheses are satisfiable -/

/-- Two points of odd order with integer coordinates, processed two at a time with windows of four bits: hypotheses of
`C83_twisted_sum` and `C83_signed_sum`. -/
example : ∃ (points : List (Quad Nat)) (As : List (W1 : WeierstrassCurve.Affine (ZMod P)).Point),
    List.Forall₂ (fun q A => OddPt A ∧ ∃ u, IRep q u ∧ ERep blsTwist u A) points As ∧ points ≠ [] ∧ 2 ∣ points.length ∧
    [3, (5 : Int)].length = points.length ∧ (∀ c ∈ [3, (5 : Int)], 0 ≤ c ∧ c < 2 ^ (4 * windowNum 4)) ∧
    (∀ c ∈ [3, (5 : Int)], ∃ d, signedOne 4 c = .ok d) ∧ ∀ A ∈ As, A ≠ 0 := by
  have : NeZero P := ⟨P_pos.ne'⟩
  have hv : ∀ z : ZMod P, z.val ≤ 2 ^ 16 * P := fun z => by have := ZMod.val_lt z; omega
  obtain ⟨G, hG, -, h⟩ := C59_subgroup
  have h1 := h 1
  have h2 := h 2
  rw [one_nsmul] at h1
  rw [two_nsmul] at h2
  have hG2 := hG.double (by decide +kernel)
  have key : ∀ (A : (W1 : WeierstrassCurve.Affine (ZMod P)).Point) (x y : ZMod P), OddPt A → IsXY A x y →
      ∃ q, OddPt A ∧ ∃ u, IRep q u ∧ ERep blsTwist u A := by
    intro A x y hA hxy
    have := C65_twist_int_coordinates blsTwist C59_constants x y A hxy hA
    let t := twistIntCoordinates blsTwist (x, y)
    refine ⟨(t.1.val, t.2.1.val, t.2.2.1.val, t.2.2.2.val), hA, _, ⟨⟨hv _, hv _, hv _, hv _⟩, rfl⟩, ?_⟩
    simp only [ZMod.natCast_zmod_val]
    exact this
  obtain ⟨q1, e1⟩ := key G _ _ h1 hG
  obtain ⟨q2, e2⟩ := key (G + G) _ _ h2 hG2
  refine ⟨[q1, q2], [G, G + G], .cons e1 (.cons e2 .nil), by simp, by simp, rfl, ?_, ?_, ?_⟩
  · intro c hc
    have : (2 : Int) ^ 4 ≤ 2 ^ (4 * windowNum 4) := pow_le_pow_right₀ (by norm_num) (by decide)
    simp at hc
    omega
  · intro c hc
    have : c < (ORDER : Int) ∧ 0 ≤ c := by
      simp at hc
      rcases hc with rfl | rfl <;> decide +kernel
    exact C62_signed_order 4 (by norm_num) _ (by omega) (by omega)
  · intro A hA
    simp at hA
    rcases hA with rfl | rfl
    · exact hG.ne_zero
    · exact hG2.ne_zero

/-- A bucket table that is not blank and two points: hypotheses of `C83_scan_loop`. -/
example : ∃ b pts, XShape 2 b pts [3, (5 : Int)] ∧ b ≠ List.replicate (windowNum 2) (List.replicate (2 ^ 2) lazyXyzz.blank) := by
  let q : Quad (List Nat) := (List.replicate 25 7, List.replicate 25 9, chunkConst 1, chunkConst 1)
  have hq : Chunks 25 q := ⟨rfl, rfl, rfl, rfl⟩
  refine ⟨List.replicate (windowNum 2) (List.replicate (2 ^ 2) q), [q, q], ⟨by simp, ?_, ?_, ?_, rfl⟩, ?_⟩
  · intro r hr
    rw [List.eq_of_mem_replicate hr]
    simp
  · intro r hr p hp
    rw [List.eq_of_mem_replicate hr] at hp
    rw [List.eq_of_mem_replicate hp]
    exact hq
  · intro p hp
    simp at hp
    rw [hp]
    exact hq
  · intro h
    have hw : (windowNum 2) = 127 := by decide
    rw [hw] at h
    have := congrArg (fun l => (l.getD 0 []).getD 0 q) h
    revert this
    decide

end Verif.Props
