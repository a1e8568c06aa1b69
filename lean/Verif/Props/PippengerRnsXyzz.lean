import Verif.Props.PippengerXyzz
import Verif.Props.PippengerArr

/-!
# C61 and C83 over residue vectors: `MSMPippenger` of `pippenger_rns.py`
-/

namespace Verif.Props

open Verif.EcCurve Verif.EcChunks Verif.EcRns Verif.Pippenger Verif.PippengerArr Verif.EcBatch Finset

attribute [local irreducible] P TWIST_D BIGM MODULI RNS_T FACTORS TOTAL MODULI_SUB TWIST_D_RNS

/-- Residue vectors of XYZZ coordinates of an affine point, with the bounds of the results of `padd_rns_xyzz_pack`. -/
def RXRep {b : ZMod P} (p : Pt) (A : (shortW 0 b).Point) : Prop :=
  ∃ u, RRep 358200 p.1 u.1 ∧ RRep 153400 p.2.1 u.2.1 ∧ RRep 51000 p.2.2.1 u.2.2.1 ∧ RRep 51000 p.2.2.2 u.2.2.2 ∧
    XRep (some u) A

/-- The residue modulo the prime of the integer that a residue vector stands for (`jax_rns_array_to_int`). -/
def rnsVal (l : List Nat) : ZMod P :=
  match arrayRnsToInt l with
  | .ok v => (v : ZMod P)
  | .error _ => 0

instance (mat : List (List Nat) × List Nat) (l : List Nat) : Decidable (RoundsUp mat l) := by
  unfold RoundsUp; infer_instance

/-- The domain of `padd_rns_xyzz_pack`: different `x`-coordinates, nonzero coordinates of the first point, and a last
quotient estimate that is rounded up. -/
def rnsXAddOk (mat : List (List Nat) × List Nat) (p q : Pt) : Bool :=
  decide (rnsVal p.1 * rnsVal q.2.2.1 ≠ rnsVal q.1 * rnsVal p.2.2.1) && decide (rnsVal p.1 ≠ 0) &&
    decide (rnsVal p.2.1 ≠ 0) &&
    decide (RoundsUp mat (mulUnreduced (lastFactors mat p q).1 (lastFactors mat p q).2))

/-- The domain of `pdul_rns_xyzz`: nonzero coordinates. -/
def rnsXDoubleOk (p : Pt) : Bool := decide (rnsVal p.1 ≠ 0) && decide (rnsVal p.2.1 ≠ 0)

/-- `rnsXyzz` instrumented with these domains; `blank` does not represent a point. -/
def checkedRnsXyzz (mat : List (List Nat) × List Nat) : Ops (Pt × Bool) :=
  guard (rnsXyzz mat) false (rnsXAddOk mat) rnsXDoubleOk

theorem rnsVal_eq {N : Nat} {l : List Nat} {x : ZMod P} (h : RRep N l x) (hN : N ≤ 358200) : rnsVal l = x := by
  obtain ⟨v, h1, h2, h3, h4⟩ := h
  have hb : (358200 * P : Int) < BIGM := by exact_mod_cast BIGM_358200
  have hm : (N : Int) * P ≤ 358200 * P := mul_le_mul_of_nonneg_right (by exact_mod_cast hN) (by positivity)
  unfold rnsVal
  rw [arrayRnsToInt_ok h1 h2 (by omega)]
  exact h4

theorem RXRep.unique {b : ZMod P} {p : Pt} {A B : (shortW 0 b).Point} (hA : RXRep p A) (hB : RXRep p B) : A = B := by
  obtain ⟨⟨u1, u2, u3, u4⟩, h1, h2, h3, h4, hA⟩ := hA
  obtain ⟨⟨v1, v2, v3, v4⟩, k1, k2, k3, k4, hB⟩ := hB
  have e1 := (rnsVal_eq h1 (by norm_num)).symm.trans (rnsVal_eq k1 (by norm_num))
  have e2 := (rnsVal_eq h2 (by norm_num)).symm.trans (rnsVal_eq k2 (by norm_num))
  have e3 := (rnsVal_eq h3 (by norm_num)).symm.trans (rnsVal_eq k3 (by norm_num))
  have e4 := (rnsVal_eq h4 (by norm_num)).symm.trans (rnsVal_eq k4 (by norm_num))
  dsimp only at e1 e2 e3 e4
  subst e1 e2 e3 e4
  obtain ⟨_, _, _, _, h⟩ := hA
  obtain ⟨_, _, _, _, k⟩ := hB
  rw [h, k]

theorem RXRep.add {b : ZMod P} {mat : List (List Nat) × List Nat} (hg : Good P mat) {p q : Pt}
    {A B : (shortW 0 b).Point} (hp : RXRep p A) (hq : RXRep q B) (h : rnsXAddOk mat p q = true) :
    RXRep (paddXyzz mat p q) (A + B) := by
  obtain ⟨u, h1, h2, h3, h4, hu⟩ := hp
  obtain ⟨v, k1, k2, k3, k4, hv⟩ := hq
  unfold rnsXAddOk at h
  rw [rnsVal_eq h1 (by norm_num), rnsVal_eq h2 (by norm_num), rnsVal_eq h3 (by norm_num), rnsVal_eq k1 (by norm_num),
    rnsVal_eq k3 (by norm_num)] at h
  simp only [Bool.and_eq_true, decide_eq_true_eq] at h
  obtain ⟨⟨⟨d1, d2⟩, d3⟩, d4⟩ := h
  have hx : u.1 / u.2.2.1 ≠ v.1 / v.2.2.1 := by
    rw [ne_eq, div_eq_div_iff hu.1 hv.1]
    exact d1
  obtain ⟨w1, w2, w3, w4⟩ := paddXyzz_rep hg h1 h2 h3 h4 k1 k2 k3 k4 d2 d3 hv.1 hv.2.1 (by
    intro h0
    apply d1
    linear_combination -h0) d4
  exact ⟨_, w1, w2, w3, w4, xyzzAdd_rep u v A B hu hv hx⟩

theorem RXRep.double {b : ZMod P} {mat : List (List Nat) × List Nat} (hg : Good P mat) {p : Pt}
    {A : (shortW 0 b).Point} (hp : RXRep p A) (h : rnsXDoubleOk p = true) : RXRep (pdulXyzz mat p) (A + A) := by
  obtain ⟨u, h1, h2, h3, h4, hu⟩ := hp
  unfold rnsXDoubleOk at h
  rw [rnsVal_eq h1 (by norm_num), rnsVal_eq h2 (by norm_num)] at h
  simp only [Bool.and_eq_true, decide_eq_true_eq] at h
  obtain ⟨w1, w2, w3, w4⟩ := pdulXyzz_rep hg h1 h2 h3 h4 h.1 h.2 two_ne three_ne
  exact ⟨_, w1.mono (by norm_num), w2, w3, w4, xyzzDouble_rep u A hu two_ne h.2⟩

theorem checkedRnsXyzz_ok {b : ZMod P} {mat : List (List Nat) × List Nat} (hg : Good P mat) :
    OpsOkX (checkedRnsXyzz mat) (Guarded (RXRep (b := b))) (fun x => x.2 = false) :=
  guard_okX (fun _ _ _ _ hp hq h => hp.add hg hq h) (fun _ _ hp h => hp.double hg h) fun _ _ _ hA hB => hA.unique hB

/-- C61 (partial) for `MSMPippenger` of pippenger_rns.py, with the reduction matrix that the code computes: if in the run
every addition and every doubling whose result is used is in its domain (`rnsXAddOk`, `rnsXDoubleOk`) and no window is
empty, then the residue vectors returned represent `∑ k_i A_i`.  What is missing: the code does not ensure the condition,
and without it the claim is false (`C58_rns_add_false`, `C61_rns_empty_window`). -/
theorem C61_rns_partial {b : ZMod P} (rd : ℚ → ℚ) (hrd : FloatRound rd) (mat : List (List Nat) × List Nat)
    (hm : constructMatrix rd P = .ok mat) (k : Nat) (hk : 0 < k) (scalars : List Int) (points : List Pt)
    (As : List (shortW 0 b).Point) (hp : List.Forall₂ RXRep points As) (hlen : scalars.length = points.length)
    (hs : ∀ c ∈ scalars, 0 ≤ c ∧ c < 2 ^ (k * windowNum k)) (r : Pt)
    (hrun : msmXyzz (checkedRnsXyzz mat) k scalars (points.map fun p => (p, true)) = .ok (r, true)) :
    msmXyzz (rnsXyzz mat) k scalars points = .ok r ∧
      RXRep r (∑ i ∈ range As.length, scalars.getD i 0 • As.getD i 0) := by
  constructor
  · have := msmXyzz_hom (guard_hom (rnsXyzz mat) rfl false (rnsXAddOk mat) rnsXDoubleOk) k scalars
      (points.map fun p => (p, true))
    unfold checkedRnsXyzz at hrun
    rw [hrun, List.map_map] at this
    simpa [Except.map, Function.comp_def] using this.symm
  · have h0 : points.map (fun p => (p, true)) ≠ [] := by
      intro h
      unfold msmXyzz shapesOk at hrun
      rw [h] at hrun
      simp at hrun
    have hsh : shapesOk 1 (points.map fun p => (p, true)).length scalars.length = true := by
      have : points.length ≠ 0 := by simpa using h0
      simp [shapesOk, hlen, this, Nat.mod_one]
    have hp' : List.Forall₂ (Guarded RXRep) (points.map fun p => (p, true)) As := by
      rw [List.forall₂_map_left_iff]
      exact hp.imp fun p A h (_ : true = true) => h
    obtain ⟨r', hr, hR⟩ := msmXyzz_ok (checkedRnsXyzz_ok (good_of_construct hrd hm)) k hk scalars _ As hp' hsh
    rw [hrun] at hr
    cases hr
    have := hR rfl
    rwa [msmSpec_exact _ _ _ (by rw [hlen, hp.length_eq]) hs] at this

/-- Integers that are XYZZ coordinates of a point, with the bounds of the results. -/
def ZXRep {b : ZMod P} (q : Quad Int) (A : (shortW 0 b).Point) : Prop :=
  (0 ≤ q.1 ∧ q.1 ≤ 358200 * P) ∧ (0 ≤ q.2.1 ∧ q.2.1 ≤ 153400 * P) ∧ (0 ≤ q.2.2.1 ∧ q.2.2.1 ≤ 51000 * P) ∧
    (0 ≤ q.2.2.2 ∧ q.2.2.2 ≤ 51000 * P) ∧
    XRep (some ((q.1 : ZMod P), (q.2.1 : ZMod P), (q.2.2.1 : ZMod P), (q.2.2.2 : ZMod P))) A

theorem rxrep_ints {b : ZMod P} {p : Pt} {A : (shortW 0 b).Point} (h : RXRep p A) :
    ∃ q, arrayRnsToIntList (coordsA p) = .ok [q.1, q.2.1, q.2.2.1, q.2.2.2] ∧ ZXRep q A := by
  obtain ⟨x, y, z, t⟩ := p
  obtain ⟨⟨a, b, c, d⟩, ⟨v1, i1, n1, m1, e1⟩, ⟨v2, i2, n2, m2, e2⟩, ⟨v3, i3, n3, m3, e3⟩, ⟨v4, i4, n4, m4, e4⟩, hx⟩ := h
  have hb : (358200 * P : Int) < BIGM := by exact_mod_cast BIGM_358200
  have hP : (0 : Int) ≤ P := by positivity
  push_cast at m1 m2 m3 m4
  refine ⟨(v1, v2, v3, v4), ?_, ⟨n1, m1⟩, ⟨n2, m2⟩, ⟨n3, m3⟩, ⟨n4, m4⟩, ?_⟩
  · show [x, y, z, t].mapM arrayRnsToInt = _
    simp only at i1 i2 i3 i4
    rw [List.mapM_cons, List.mapM_cons, List.mapM_cons, List.mapM_cons, arrayRnsToInt_ok i1 n1 (by omega),
      arrayRnsToInt_ok i2 n2 (by omega), arrayRnsToInt_ok i3 n3 (by omega), arrayRnsToInt_ok i4 n4 (by omega)]
    rfl
  · simp only at e1 e2 e3 e4
    rw [e1, e2, e3, e4]
    exact hx

/-- The residue vectors of affine coordinates of a point, with `ZZ = ZZZ = 1`. -/
theorem rnsPoint_affine {b : ZMod P} {q : Int × Int} {A : (shortW 0 b).Point} (h1 : 0 ≤ q.1 ∧ q.1 ≤ 51000 * P)
    (h2 : 0 ≤ q.2 ∧ q.2 ≤ 51000 * P) (hA : IsXY A (q.1 : ZMod P) (q.2 : ZMod P)) :
    RXRep (rnsPoint (q.1, q.2, 1, 1)) A := by
  have hP : (1 : Int) ≤ P := by exact_mod_cast P_pos'
  have e := intToArrayRns_rep 1 (by norm_num) (by omega)
  rw [Int.cast_one] at e
  exact ⟨((q.1 : ZMod P), (q.2 : ZMod P), 1, 1), (intToArrayRns_rep _ h1.1 h1.2).mono (by norm_num),
    (intToArrayRns_rep _ h2.1 h2.2).mono
    (by norm_num), e, e, xrep_affine hA⟩

/-- C83 (partial) for `MSMPippenger` of pippenger_rns.py, as written, from affine integer coordinates to integers: the four
integers returned are XYZZ coordinates of `Σ kᵢ Pᵢ` for all runs that stay in the domains of the formulas
(`checkedRnsXyzz`).  Missing: the runs that leave these domains. -/
theorem C83_rns_xyzz_sum_partial {b : ZMod P} (rd : ℚ → ℚ) (hrd : FloatRound rd) (mat : Mat)
    (hm : constructMatrix rd P = .ok mat) (k : Nat) (hk : 0 < k) (hk' : k ≤ 31) (scalars : List Int)
    (points : List (Int × Int)) (As : List (shortW 0 b).Point)
    (hp : List.Forall₂ (fun q A => (0 ≤ q.1 ∧ q.1 ≤ 51000 * (P : Int)) ∧ (0 ≤ q.2 ∧ q.2 ≤ 51000 * (P : Int)) ∧
      IsXY A (q.1 : ZMod P) (q.2 : ZMod P)) points As)
    (hlen : scalars.length = points.length) (hs : ∀ c ∈ scalars, 0 ≤ c ∧ c < 2 ^ (k * windowNum k)) (r : Pt)
    (hrun : msmXyzz (checkedRnsXyzz mat) k scalars (points.map fun q => (rnsPoint (q.1, q.2, 1, 1), true)) =
      .ok (r, true)) :
    ∃ q, msmXyzzRnsA mat k scalars (points.map fun q => [q.1, q.2]) = .ok [q.1, q.2.1, q.2.2.1, q.2.2.2] ∧
      ZXRep q (∑ i ∈ range As.length, scalars.getD i 0 • As.getD i 0) := by
  have hp' : List.Forall₂ RXRep (points.map fun q => rnsPoint (q.1, q.2, 1, 1)) As := by
    rw [List.forall₂_map_left_iff]
    exact hp.imp fun q A ⟨h1, h2, h3⟩ => rnsPoint_affine h1 h2 h3
  obtain ⟨h1, h2⟩ := C61_rns_partial rd hrd mat hm k hk scalars _ As hp'
    (by rw [List.length_map]; exact hlen) hs r (by rw [List.map_map]; exact hrun)
  obtain ⟨q, e, hq⟩ := rxrep_ints h2
  refine ⟨q, ?_, hq⟩
  unfold msmXyzzRnsA
  rw [(C83_rns mat k 1 hk hk' scalars [] points).2, h1]
  exact e

/-! ### Empty windows -/

theorem mulUnreduced_len {a b : List Nat} (ha : a.length = 50) (hb : b.length = 50) : (mulUnreduced a b).length = 50 :=
  (redInternal_getD _ (by rw [List.length_zipWith, ha, hb]; rfl)).1

theorem modMul_len {mat : List (List Nat) × List Nat} (hg : Good P mat) {a b : List Nat} (ha : a.length = 50)
    (hb : b.length = 50) : (modMul mat a b).length = 50 := (modRed_getD hg _ (mulUnreduced_len ha hb)).1

theorem negate_len {a : List Nat} (ha : a.length = 50) : (negate a).length = 50 := by
  unfold negate
  rw [List.length_zipWith, MODULI_SUB_len, ha]
  rfl

theorem addSubVals_len {v : List Nat} {vs : List (List Nat)} (hv : v.length = 50) (hvs : ∀ w ∈ vs, w.length = 50) :
    (addSubVals v vs).length = 50 := by
  unfold addSubVals
  have : (vs.foldl (fun acc w => List.zipWith (fun x y => (x + y) % 2 ^ 32) w acc) v).length = 50 := by
    induction vs generalizing v with
    | nil => exact hv
    | cons w vs ih =>
      rw [List.foldl_cons]
      refine ih ?_ fun w hw => hvs w (by simp [hw])
      rw [List.length_zipWith, hv, hvs w (by simp)]
      rfl
  rw [List.length_zipWith, RNS_T_len, this]
  rfl

/-- The zero vector. -/
def Z50 : List Nat := List.replicate 50 0

theorem Z50_len : Z50.length = 50 := by simp [Z50]

theorem Z50_getD (j : Nat) : Z50.getD j 0 = 0 := by
  unfold Z50
  rw [List.getD_eq_getElem?_getD, List.getElem?_replicate]
  split <;> rfl

theorem Z50_zip (f : Nat → Nat → Nat) (h : ∀ x, f 0 x = 0) {b : List Nat} (hb : b.length = 50) :
    List.zipWith f Z50 b = Z50 := by
  unfold Z50
  have : ∀ (n : Nat) (b : List Nat), b.length = n → List.zipWith f (List.replicate n 0) b = List.replicate n 0 := by
    intro n
    induction n with
    | zero => intro b _; simp
    | succ n ih =>
      intro b hb
      cases b with
      | nil => simp at hb
      | cons x b =>
        rw [List.replicate_succ, List.zipWith_cons_cons, h, ih b (by simpa using hb)]
  exact this 50 b hb

theorem redInternal_zero : redInternal Z50 = Z50 := by
  apply replicate_zero_of _ (redInternal_getD _ Z50_len).1
  intro j hj
  rw [(redInternal_getD _ Z50_len).2 j hj, Z50_getD]
  simp [foldRed]

theorem modRed_zero {mat : List (List Nat) × List Nat} (hg : Good P mat) : modRed mat 50 Z50 = Z50 := by
  obtain ⟨h1, h2⟩ := modRed_getD hg Z50 Z50_len
  apply replicate_zero_of _ h1
  intro j hj
  have hz : ∀ r, r < 100 → (bytes Z50).getD r 0 = 0 := by unfold bytes Z50; decide +kernel
  have e1 : ∀ w : Nat → Nat, ∑ r ∈ range 100, (bytes Z50).getD r 0 * w r = 0 := by
    intro w
    apply sum_eq_zero
    intro r hr
    rw [hz r (mem_range.1 hr), Nat.zero_mul]
  rw [h2 j hj]
  unfold preFold estK
  rw [e1, e1]
  simp [foldRed]

theorem modMul_zero_left {mat : List (List Nat) × List Nat} (hg : Good P mat) {b : List Nat} (hb : b.length = 50) :
    modMul mat Z50 b = Z50 := by
  unfold modMul mulUnreduced
  rw [Z50_zip _ (fun x => by rw [Nat.zero_mul]; rfl) hb, redInternal_zero, modRed_zero hg]

theorem modMul_zero_right {mat : List (List Nat) × List Nat} (hg : Good P mat) {b : List Nat} (hb : b.length = 50) :
    modMul mat b Z50 = Z50 := by
  unfold modMul mulUnreduced
  rw [List.zipWith_comm, Z50_zip _ (fun x => by rw [Nat.mul_zero]; rfl) hb, redInternal_zero, modRed_zero hg]

section
attribute [local irreducible] modMul addSubVals negate Z50

/-- Four vectors of 50 limbs. -/
def ROk (p : Pt) : Prop := p.1.length = 50 ∧ p.2.1.length = 50 ∧ p.2.2.1.length = 50 ∧ p.2.2.2.length = 50

theorem rnsXyzz_bad {mat : List (List Nat) × List Nat} (hg : Good P mat) :
    BadOps (rnsXyzz mat) ROk (fun p => ROk p ∧ p.2.2.1 = Z50) := by
  have hadd : ∀ p q, ROk p → ROk q → ROk (paddXyzz mat p q) := by
    rintro ⟨x1, y1, z1, w1⟩ ⟨x2, y2, z2, w2⟩ ⟨h1, h2, h3, h4⟩ ⟨k1, k2, k3, k4⟩
    dsimp only at h1 h2 h3 h4 k1 k2 k3 k4
    have u1 := modMul_len hg h1 k3
    have s1 := modMul_len hg h2 k4
    have zz := modMul_len hg h3 k3
    have zzz := modMul_len hg h4 k4
    have u2 := modMul_len hg h3 k1
    have s2 := modMul_len hg h4 k2
    have p' := addSubVals_len u2 (vs := [negate (modMul mat x1 z2)]) (by simpa using negate_len u1)
    have r' := addSubVals_len s2 (vs := [negate (modMul mat y1 w2)]) (by simpa using negate_len s1)
    have pp := modMul_len hg p' p'
    have rr := modMul_len hg r' r'
    have ppp := modMul_len hg p' pp
    have q' := modMul_len hg u1 pp
    have x3 := addSubVals_len rr (vs := [negate _, negate _, negate _]) (by
      simpa using ⟨negate_len ppp, negate_len q', negate_len q'⟩)
    have qx := addSubVals_len q' (vs := [negate _]) (by simpa using negate_len x3)
    have sp := modMul_len hg s1 ppp
    have rq := modMul_len hg r' qx
    exact ⟨x3, addSubVals_len rq (vs := [negate _]) (by simpa using negate_len sp), modMul_len hg zz pp,
      modMul_len hg zzz ppp⟩
  have hdul : ∀ p, ROk p → ROk (pdulXyzz mat p) := by
    rintro ⟨x1, y1, z1, w1⟩ ⟨h1, h2, h3, h4⟩
    dsimp only at h1 h2 h3 h4
    have u := addSubVals_len h2 (vs := [y1]) (by simpa using h2)
    have v := modMul_len hg u u
    have xx := modMul_len hg h1 h1
    have w := modMul_len hg u v
    have s := modMul_len hg h1 v
    have m := addSubVals_len xx (vs := [modMul mat x1 x1, modMul mat x1 x1]) (by simpa using xx)
    have mm := modMul_len hg m m
    have wy := modMul_len hg w h2
    have x3 := addSubVals_len mm (vs := [negate _, negate _]) (by simpa using ⟨negate_len s, negate_len s⟩)
    have sx := addSubVals_len s (vs := [negate _, modMul mat x1 _, modMul mat x1 _]) (by
      simpa using ⟨negate_len mm, s, s⟩)
    have ms := modMul_len hg m sx
    exact ⟨x3, addSubVals_len ms (vs := [negate _]) (by simpa [EcRns.add2] using negate_len wy), modMul_len hg v h3,
      modMul_len hg w h4⟩
  have hb : ∀ x1 z1 x2 z2, x1.length = 50 → z1.length = 50 → x2.length = 50 → z2.length = 50 →
      (modMul mat (addSubVals (modMul mat z1 x2) [negate (modMul mat x1 z2)])
        (addSubVals (modMul mat z1 x2) [negate (modMul mat x1 z2)])).length = 50 := by
    intro x1 z1 x2 z2 h1 h2 h3 h4
    have p' := addSubVals_len (modMul_len hg h2 h3) (vs := [negate (modMul mat x1 z2)]) (by
      simpa using negate_len (modMul_len hg h1 h4))
    exact modMul_len hg p' p'
  refine ⟨rfl, ?_, fun p h => h.1, hadd, ?_, ?_, hdul, ?_⟩
  · have e : rnsSmall 0 = Z50 := by
      unfold rnsSmall Z50
      rw [List.eq_replicate_iff, List.length_map, MODULI_len]
      refine ⟨rfl, fun x hx => ?_⟩
      obtain ⟨m, -, rfl⟩ := List.mem_map.1 hx
      exact Nat.zero_mod m
    have hl := Z50_len
    show (ROk (rnsSmall 0, rnsSmall 0, rnsSmall 0, rnsSmall 0)) ∧ rnsSmall 0 = Z50
    rw [e]
    exact ⟨⟨hl, hl, hl, hl⟩, rfl⟩
  · rintro ⟨x1, y1, z1, w1⟩ ⟨x2, y2, z2, w2⟩ ⟨hp, h0⟩ hq
    refine ⟨hadd _ _ hp hq, ?_⟩
    dsimp only at h0
    subst h0
    show modMul mat (modMul mat Z50 z2) _ = Z50
    rw [modMul_zero_left hg hq.2.2.1]
    exact modMul_zero_left hg (hb _ _ _ _ hp.1 hp.2.2.1 hq.1 hq.2.2.1)
  · rintro ⟨x1, y1, z1, w1⟩ ⟨x2, y2, z2, w2⟩ hp ⟨hq, h0⟩
    refine ⟨hadd _ _ hp hq, ?_⟩
    dsimp only at h0
    subst h0
    show modMul mat (modMul mat z1 Z50) _ = Z50
    rw [modMul_zero_right hg hp.2.2.1]
    exact modMul_zero_left hg (hb _ _ _ _ hp.1 hp.2.2.1 hq.1 hq.2.2.1)
  · rintro ⟨x1, y1, z1, w1⟩ ⟨hp, h0⟩
    refine ⟨hdul _ hp, ?_⟩
    dsimp only at h0
    subst h0
    have u := addSubVals_len hp.2.1 (vs := [y1]) (by simpa using hp.2.1)
    exact modMul_zero_right hg (modMul_len hg u u)

end

/-- C61 is false for residue vectors too: whenever some window of all scalars is zero, the returned `ZZ` is the zero
vector, and the result represents no point, whatever the points are. -/
theorem C61_rns_empty_window {b : ZMod P} (rd : ℚ → ℚ) (hrd : FloatRound rd) (mat : List (List Nat) × List Nat)
    (hm : constructMatrix rd P = .ok mat) (k : Nat) (scalars : List Int) (points : List Pt)
    (hp : ∀ p ∈ points, p.1.length = 50 ∧ p.2.1.length = 50 ∧ p.2.2.1.length = 50 ∧ p.2.2.2.length = 50)
    (h0 : points ≠ []) (hlen : scalars.length = points.length) (w : Nat) (hw : w < windowNum k)
    (hz : ∀ c ∈ scalars, c / 2 ^ (w * k) % 2 ^ k = 0) :
    ∃ r, msmXyzz (rnsXyzz mat) k scalars points = .ok r ∧ r.2.2.1 = List.replicate 50 0 ∧
      ∀ A : (shortW 0 b).Point, ¬ RXRep r A := by
  obtain ⟨r, hr, hok, hu⟩ := msmXyzz_bad (rnsXyzz_bad (good_of_construct hrd hm)) k scalars points hp h0 hlen w hw hz
  refine ⟨r, hr, hu, ?_⟩
  rintro A ⟨v, -, -, h3, -, hv⟩
  have h : IsRns Z50 0 := by
    refine ⟨Z50_len, ?_, ?_⟩
    · intro x hx
      have : x = 0 := by simpa [Z50] using hx
      omega
    · intro i hi
      rw [Z50_getD]
      rfl
  have e : RRep 51000 r.2.2.1 (0 : ZMod P) := by
    rw [hu]
    exact ⟨0, h, le_rfl, by positivity, Int.cast_zero⟩
  exact hv.1 (h3.unique e)

/-- The same from integers to integers, for scalars below `2^(k (windows - 1))`: the third integer returned is zero. -/
theorem C83_rns_xyzz_small_scalars (rd : ℚ → ℚ) (hrd : FloatRound rd) (mat : Mat) (hm : constructMatrix rd P = .ok mat)
    (k : Nat) (hk : 0 < k) (hk' : k ≤ 31) (scalars : List Int) (points : List (Int × Int)) (h0 : points ≠ [])
    (hlen : scalars.length = points.length) (hs : ∀ c ∈ scalars, 0 ≤ c ∧ c < 2 ^ (k * (windowNum k - 1))) :
    ∃ x y zzz, msmXyzzRnsA mat k scalars (points.map fun q => [q.1, q.2]) = .ok [x, y, 0, zzz] := by
  have hw := windowNum_pos k hk
  obtain ⟨r, hr, hok, hu⟩ := msmXyzz_bad (rnsXyzz_bad (good_of_construct hrd hm)) k scalars
    (points.map fun q => rnsPoint (q.1, q.2, 1, 1)) (by
      intro p hp
      obtain ⟨q, -, rfl⟩ := List.mem_map.1 hp
      have : ∀ x, (EcBatch.intToArrayRns x).length = 50 := fun x => by
        unfold EcBatch.intToArrayRns
        rw [List.length_map, MODULI_len]
      exact ⟨this _, this _, this _, this _⟩) (by simpa using h0) (by rw [List.length_map]; exact hlen)
    (windowNum k - 1) (by omega) (fun c hc => by
      have h := hs c hc
      rw [Int.ediv_eq_zero_of_lt h.1 (by rw [Nat.mul_comm]; exact h.2)]
      rfl)
  have hall : ∀ l : List Nat, l.length = 50 → ∃ v, arrayRnsToInt l = .ok v := by
    intro l hl
    obtain ⟨pre, v, e1, e2, -⟩ := C35_ec_reconstruct (l.map fun x : Nat => (x : Int)) MODULI
      (by rw [List.length_map, hl, MODULI_len]) MODULI_co MODULI_pos
    refine ⟨v, ?_⟩
    unfold arrayRnsToInt
    rw [e1]
    exact e2
  obtain ⟨x, y, z, t⟩ := r
  obtain ⟨l1, l2, l3, l4⟩ := hok
  dsimp only at hu l1 l2 l3 l4
  subst hu
  obtain ⟨v1, e1⟩ := hall x l1
  obtain ⟨v2, e2⟩ := hall y l2
  obtain ⟨v4, e4⟩ := hall t l4
  have e3 : arrayRnsToInt Z50 = .ok 0 := by
    unfold Z50 arrayRnsToInt
    decide +kernel
  refine ⟨v1, v2, v4, ?_⟩
  unfold msmXyzzRnsA
  rw [(C83_rns mat k 1 hk hk' scalars [] points).2, hr]
  show [x, y, Z50, t].mapM arrayRnsToInt = _
  rw [List.mapM_cons, List.mapM_cons, List.mapM_cons, List.mapM_cons, e1, e2, e3, e4]
  rfl

/-- For `1 * G` with the configured generator and windows of four bits the code returns `ZZ = 0`. -/
example (rd : ℚ → ℚ) (hrd : FloatRound rd) (mat : Mat) (hm : constructMatrix rd P = .ok mat) :
    ∃ x y zzz, msmXyzzRnsA mat 4 [1] [[(GEN_X : Int), (GEN_Y : Int)]] = .ok [x, y, 0, zzz] :=
  C83_rns_xyzz_small_scalars rd hrd mat hm 4 (by norm_num) (by norm_num) [1] [(GEN_X, GEN_Y)] (by simp) rfl (by
    intro c hc
    rw [List.mem_singleton] at hc
    subst hc
    decide +kernel)

end Verif.Props
