import Verif.Lemmas.PippengerXyzz
import Verif.Props.Pippenger
import Verif.Props.EcRnsCurve

/-!
# C60 over residue vectors (`pippenger_rns.py`)
-/

namespace Verif.Props

open Verif.EcCurve Verif.EcChunks Verif.EcRns Verif.Pippenger Finset

attribute [local irreducible] P TWIST_D BIGM MODULI RNS_T FACTORS TOTAL MODULI_SUB TWIST_D_RNS

/-- Residue vectors of extended coordinates of a point of odd order. -/
def RTRep (p : Pt) (A : (W1 : WeierstrassCurve.Affine (ZMod P)).Point) : Prop :=
  OddPt A ∧ ∃ u, RRep4 51000 p u ∧ ERep blsTwist u A

/-- The zero vector, or a nonzero first limb: what the masked negation handles. -/
def zOkB (l : List Nat) : Bool := decide (l = List.replicate 50 0) || l.getD 0 0 != 0

/-- Some limb is not a multiple of its modulus. -/
def nzB (l : List Nat) : Bool := !((List.range 50).all fun i => l.getD i 0 % MODULI.getD i 0 == 0)

/-- The domain of `padd_rns_twisted_pack`. -/
def rnsAddOk (mat : List (List Nat) × List Nat) (p q : Pt) : Bool :=
  zOkB (modMul mat p.1 q.1) && zOkB (modMul mat p.2.1 q.2.1) &&
    zOkB (modMul mat (modMul mat p.2.2.2 q.2.2.2) TWIST_D_RNS)

/-- The domain of `pdul_rns_twisted_pack`. -/
def rnsDoubleOk (p : Pt) : Bool := nzB p.1 && nzB p.2.1 && nzB p.2.2.1

/-- `rnsTwisted` instrumented with these domains. -/
def checkedRns (mat : List (List Nat) × List Nat) : Ops (Pt × Bool) :=
  guard (rnsTwisted mat) true (rnsAddOk mat) rnsDoubleOk

theorem zOkB_iff {l : List Nat} : zOkB l = true ↔ ZOk l := by
  unfold zOkB ZOk
  simp

theorem nzB_not {l : List Nat} (h : nzB l = true) : ¬ IsRns l 0 := by
  intro hl
  unfold nzB at h
  rw [Bool.not_eq_true', List.all_eq_false] at h
  obtain ⟨i, hi, h⟩ := h
  rw [List.mem_range] at hi
  apply h
  have := hl.mod i hi
  rw [beq_iff_eq]
  exact Nat.mod_eq_zero_of_dvd (Int.natCast_dvd_natCast.1 (Int.modEq_zero_iff_dvd.1 this))

theorem RRep4.unique' {p : Pt} {u v : Quad (ZMod P)} (hu : RRep4 51000 p u) (hv : RRep4 51000 p v) : u = v :=
  Prod.ext (hu.1.unique hv.1) (Prod.ext (hu.2.1.unique hv.2.1)
    (Prod.ext (hu.2.2.1.unique hv.2.2.1) (hu.2.2.2.unique hv.2.2.2)))

theorem rnsSmall_rep (c : Nat) (hc : c ≤ 1) : RRep 51000 (rnsSmall c) (c : ZMod P) := by
  have h0 : rnsCheck (rnsSmall 0) 0 = true := by decide +kernel
  have h1 : rnsCheck (rnsSmall 1) 1 = true := by decide +kernel
  rcases Nat.le_one_iff_eq_zero_or_eq_one.1 hc with rfl | rfl
  · exact rnsCheck_rep h0
  · exact rnsCheck_rep h1

theorem checkedRns_ok (rd : ℚ → ℚ) (hrd : FloatRound rd) (mat : List (List Nat) × List Nat)
    (hm : constructMatrix rd P = .ok mat) : OpsOk (checkedRns mat) (Guarded RTRep) := by
  refine guard_ok ?_ ?_ ?_ ?_
  · refine ⟨OddPt.zero, edZero, ⟨?_, ?_, ?_, ?_⟩, C59_zero _⟩
    · exact (rnsSmall_rep 0 (by norm_num)).congr Nat.cast_zero.symm
    · exact (rnsSmall_rep 1 (by norm_num)).congr Nat.cast_one.symm
    · exact (rnsSmall_rep 1 (by norm_num)).congr Nat.cast_one.symm
    · exact (rnsSmall_rep 0 (by norm_num)).congr Nat.cast_zero.symm
  · rintro p q A B ⟨hA, u, hp, hu⟩ ⟨hB, v, hq, hv⟩ h
    unfold rnsAddOk at h
    simp only [Bool.and_eq_true, zOkB_iff] at h
    exact ⟨hA.add hB, C59_rns_add_partial rd hrd mat hm p q u v A B hp hq h.1.1 h.1.2 h.2 hA hB hu hv⟩
  · rintro p A ⟨hA, u, hp, hu⟩ h
    unfold rnsDoubleOk at h
    simp only [Bool.and_eq_true] at h
    exact ⟨hA.add hA, C59_rns_double_partial rd hrd mat hm p u A hp (nzB_not h.1.1) (nzB_not h.1.2) (nzB_not h.2) hA hu⟩
  · rintro p A B ⟨hA, u, hp, hu⟩ ⟨hB, v, hq, hv⟩
    obtain rfl := RRep4.unique' hp hq
    exact C59_faithful blsTwist C59_constants u u A B hA hB hu hv rfl rfl

/-- C60 for `pippenger_rns.MSMPippengerTwisted` (partial): when all negations of the run are in the domain of the two
negation functions (`checkedRns` records this in a bit), the result represents `∑ k_i A_i`.  What is missing: the code
does not ensure the condition (`C59_rns_add_false`, `C59_rns_double_false`). -/
theorem C60_rns_partial (rd : ℚ → ℚ) (hrd : FloatRound rd) (mat : List (List Nat) × List Nat)
    (hm : constructMatrix rd P = .ok mat) (k par : Nat) (hk : 0 < k) (hk' : k ≤ 32) (scalars : List Int) (points : List Pt)
    (As : List (W1 : WeierstrassCurve.Affine (ZMod P)).Point) (hp : List.Forall₂ RTRep points As)
    (hlen : scalars.length = points.length) (hs : ∀ c ∈ scalars, 0 ≤ c ∧ c < 2 ^ (k * windowNum k)) (r : Pt)
    (hrun : msmTwisted (checkedRns mat) k par scalars (points.map fun p => (p, true)) = .ok (r, true)) :
    msmTwisted (rnsTwisted mat) k par scalars points = .ok r ∧
      RTRep r (∑ i ∈ range As.length, scalars.getD i 0 • As.getD i 0) := by
  constructor
  · have := msmTwisted_hom (guard_hom (rnsTwisted mat) rfl true (rnsAddOk mat) rnsDoubleOk) k par scalars
      (points.map fun p => (p, true))
    unfold checkedRns at hrun
    rw [hrun, List.map_map] at this
    simpa [Except.map, Function.comp_def] using this.symm
  · have hsh : shapesOk par (points.map fun p => (p, true)).length scalars.length = true := by
      by_contra h
      unfold msmTwisted at hrun
      rw [if_neg h] at hrun
      cases hrun
    have hp' : List.Forall₂ (Guarded RTRep) (points.map fun p => (p, true)) As := by
      rw [List.forall₂_map_left_iff]
      exact hp.imp fun p A h (_ : true = true) => h
    obtain ⟨r', hr, hR⟩ := msmTwisted_ok (checkedRns_ok rd hrd mat hm) k par hk hk' scalars _ As hp' hsh
    rw [hrun] at hr
    cases hr
    have := hR rfl
    rwa [msmSpec_exact _ _ _ (by rw [hlen, hp.length_eq]) hs] at this

end Verif.Props
