import Verif.Lemmas.EcRnsRunA
import Verif.Lemmas.EcRnsRunB
import Verif.Props.PippengerArr

/-!
# A complete run of the residue-vector MSM (C60, C83)

`C60_rns_partial` and `C83_rns_sum_partial` are about the runs whose negations stay in their domains.  Here the run of
`MSMPippengerTwisted` of pippenger_rns.py for the generator, the scalar `2^254 - 1` and one-bit windows is shown to be one
of them: 253 doublings and 257 additions on residue vectors, every one checked.
-/

namespace Verif.Props

open Verif.EcCurve Verif.EcChunks Verif.EcRns Verif.Pippenger Verif.PippengerArr Verif.EcBatch

/-- The run for one point, windows of one bit, and the scalar `2^254 - 1`: all windows have the same sum. -/
theorem run_one_twisted {α : Type} (o : Ops α) (p : α) : msmTwisted o 1 1 [2 ^ 254 - 1] [p] =
    .ok (windowMerge o 1 (List.replicate 254 (o.padd o.blank (paddCheck o o.blank (o.padd o.blank (o.padd o.blank p)))))) := by
  have hs : (baSelection 1 [2 ^ 254 - 1]).map (fun r => r.map toU32) = [List.replicate 254 0] := by decide +kernel
  have hn : windowNum 1 = 254 := by decide +kernel
  have hr : ∀ {β : Type} (x d : β) (w : Nat), w < 254 → (List.replicate 254 x).getD w d = x := by
    intro β x d w hw
    rw [List.getD_eq_getElem _ _ (by rw [List.length_replicate]; exact hw), List.getElem_replicate]
  have hacc : bucketAccumulation o 254 1 1 (List.replicate 254 (List.replicate (2 ^ 1 - 1) o.blank)) [p]
      [List.replicate 254 0] = List.replicate 254 [o.padd o.blank p] := by
    unfold bucketAccumulation
    rw [show List.range 1 = [0] from rfl, List.foldl_cons, List.foldl_nil]
    unfold baStep
    rw [List.eq_replicate_iff]
    refine ⟨by rw [List.length_map, List.length_range, List.length_replicate], ?_⟩
    intro row hrow
    rw [List.mem_map] at hrow
    obtain ⟨w, hw, rfl⟩ := hrow
    rw [List.length_replicate, List.mem_range] at hw
    have h1 : reshapeRow ([List.replicate 254 0].flatten) (254 * 1) 0 = List.replicate 254 0 := by decide +kernel
    have h2 : reshapeRow [p] 1 0 = [p] := rfl
    dsimp only
    rw [h1, h2, hr _ _ _ hw, hr _ _ _ hw, Nat.div_eq_of_lt hw]
    rfl
  unfold msmTwisted
  rw [if_pos (by simp [shapesOk]), hs, hn]
  simp only [List.length_cons, List.length_nil, Nat.zero_add, Nat.div_one, Nat.mul_one]
  rw [hacc, List.map_replicate]
  refine congrArg (fun l => Except.ok (windowMerge o 1 l)) ?_
  unfold Pippenger.batchSum
  rw [show List.range 1 = [0] from rfl, List.foldl_cons, List.foldl_nil]
  unfold reshapeRow
  rw [Nat.zero_mul, List.drop_zero, List.take_replicate, List.zipWith_replicate]
  rfl

attribute [local irreducible] exactMatrix modMul runW runG runQ1 runQ2 runQ3 runQ4 runQ5 runQ6 runQ7 runQ8

theorem blank_eq : (rnsTwisted (exactMatrix P)).blank = runBlank := by
  show (rnsSmall 0, rnsSmall 1, rnsSmall 1, rnsSmall 0) = runBlank
  decide +kernel

theorem merge_eq : (mergeStep runW)^[253] (runW, true) = (runQ8, true) := by
  have hw := run_lim.2.2
  have h0 := chunk hw hw run_chunk0
  have h1 := chunk hw h0.2 run_chunk1
  have h2 := chunk hw h1.2 run_chunk2
  have h3 := chunk hw h2.2 run_chunk3
  have h4 := chunk hw h3.2 run_chunk4
  have h5 := chunk hw h4.2 run_chunk5
  have h6 := chunk hw h5.2 run_chunk6
  have h7 := chunk hw h6.2 run_chunk7
  rw [show 253 = 29 + (32 + (32 + (32 + (32 + (32 + (32 + 32)))))) from rfl]
  simp only [Function.iterate_add_apply]
  rw [h0.1, h1.1, h2.1, h3.1, h4.1, h5.1, h6.1, h7.1]

theorem window_eq : (checkedRns (exactMatrix P)).padd (checkedRns (exactMatrix P)).blank
    (paddCheck (checkedRns (exactMatrix P)) (checkedRns (exactMatrix P)).blank
      ((checkedRns (exactMatrix P)).padd (checkedRns (exactMatrix P)).blank
        ((checkedRns (exactMatrix P)).padd (checkedRns (exactMatrix P)).blank (runG, true)))) = (runW, true) := by
  obtain ⟨hb, hg, -⟩ := run_lim
  have h := run_window
  unfold windowK at h
  obtain ⟨a1, l1, h⟩ := paddK_true hb hg h
  obtain ⟨a2, l2, h⟩ := paddK_true hb l1 h
  obtain ⟨n, h⟩ := hdK_true l2.1 h
  obtain ⟨a3, l3, h⟩ := paddK_true hb l2 h
  obtain ⟨a4, l4, h⟩ := paddK_true hb l3 h
  have hbl : (checkedRns (exactMatrix P)).blank = (runBlank, true) := by
    show ((rnsTwisted (exactMatrix P)).blank, true) = _
    rw [blank_eq]
  rw [hbl, padd_checked a1, padd_checked a2]
  unfold paddCheck
  have hne : runBlank ≠ paddTwisted (exactMatrix P) runBlank (paddTwisted (exactMatrix P) runBlank runG) := by
    intro e
    rw [← e] at n
    have : nzB runBlank.1 = false := by decide +kernel
    rw [this] at n
    cases n
  rw [padd_checked a3]
  have : ∀ x y : Pt × Bool, (checkedRns (exactMatrix P)).selEq (runBlank, true)
      (paddTwisted (exactMatrix P) runBlank (paddTwisted (exactMatrix P) runBlank runG), true) x y = y := by
    intro x y
    show (selDec _ _ x.1 y.1, if _ then _ else y.2) = y
    unfold selDec
    rw [if_neg hne, if_neg hne]
  rw [this, padd_checked a4, eqPt_true h]

theorem windowMerge_replicate {α : Type} (o : Ops α) (w : α) (n : Nat) :
    windowMerge o 1 (List.replicate (n + 1) w) = (fun r => o.padd (o.pdul r) w)^[n] w := by
  unfold windowMerge
  rw [List.length_replicate, Nat.add_sub_cancel, List.take_replicate, Nat.min_eq_left (by omega),
    List.getD_eq_getElem _ _ (by rw [List.length_replicate]; omega), List.getElem_replicate, List.reverse_replicate]
  have : ∀ (n : Nat) (r : α), (List.replicate n w).foldl (fun r s => o.padd (o.pdul^[1] r) s) r =
      (fun r => o.padd (o.pdul r) w)^[n] r := by
    intro n
    induction n with
    | zero => intro r; rfl
    | succ n ih => intro r; rw [List.replicate_succ, List.foldl_cons, ih, Function.iterate_succ_apply]; rfl
  exact this n w

/-- The run stays in the domains of the negations. -/
theorem run_checked : msmTwisted (checkedRns (exactMatrix P)) 1 1 [2 ^ 254 - 1] [(runG, true)] = .ok (runQ8, true) := by
  rw [run_one_twisted, window_eq, windowMerge_replicate _ _ 253]
  exact congrArg Except.ok merge_eq

/-- The generator of the configured curve on the twisted curve, extended coordinates with `Z = 1`. -/
def genExt : Quad Int := (GEN_U, GEN_E, 1, (GEN_U * GEN_E % P : Nat))

theorem genExt_point : rnsPoint genExt = runG := by decide +kernel

theorem genExt_range : ∀ c ∈ [genExt.1, genExt.2.1, genExt.2.2.1, genExt.2.2.2], 0 ≤ c ∧ c ≤ 51000 * (P : Int) := by
  decide +kernel

/-- The hypotheses of `C60_rns_partial` and of `C83_rns_sum_partial` are met by the generator, the scalar `2^254 - 1`, one-bit
windows and one point per step, with the reduction matrix that the code computes; hence (last clause) the code returns the
coordinates of `(2^254 - 1) G` for it. -/
example (rd : ℚ → ℚ) (hrd : FloatRound rd) : ∃ (mat : Mat) (G : (W1 : WeierstrassCurve.Affine (ZMod P)).Point) (r : Pt),
    constructMatrix rd P = .ok mat ∧ G ≠ 0 ∧
    List.Forall₂ (fun q A => OddPt A ∧ ∃ u, ZRep q u ∧ ERep blsTwist u A) [genExt] [G] ∧
    msmTwisted (checkedRns mat) 1 1 [2 ^ 254 - 1] ([genExt].map fun q => (rnsPoint q, true)) = .ok (r, true) ∧
    ∃ q u, msmTwistedRnsA mat 1 1 [2 ^ 254 - 1] [[genExt.1, genExt.2.1, genExt.2.2.1, genExt.2.2.2]] =
        .ok [q.1, q.2.1, q.2.2.1, q.2.2.2] ∧ ZRep q u ∧ ERep blsTwist u ((2 ^ 254 - 1 : Int) • G) := by
  obtain ⟨G, hG, -, hodd⟩ := C59_subgroup
  have hG1 : OddPt G := by have := hodd 1; rwa [one_nsmul] at this
  have hf : List.Forall₂ (fun q A => OddPt A ∧ ∃ u, ZRep q u ∧ ERep blsTwist u A) [genExt] [G] := by
    refine List.Forall₂.cons ⟨hG1, _, ⟨genExt_range, rfl⟩, ?_⟩ List.Forall₂.nil
    refine ⟨by simp [genExt], ?_, ?_⟩
    · dsimp only [genExt]
      push_cast
      ring
    · dsimp only [genExt]
      push_cast
      rw [div_one, div_one]
      exact gen_ed hG
  have hm := constructMatrix_exact rd hrd P
  have hrun : msmTwisted (checkedRns (exactMatrix P)) 1 1 [2 ^ 254 - 1] ([genExt].map fun q => (rnsPoint q, true)) =
      .ok (runQ8, true) := by
    rw [List.map_singleton, genExt_point]
    exact run_checked
  refine ⟨exactMatrix P, G, runQ8, hm, hG.ne_zero, hf, hrun, ?_⟩
  obtain ⟨q, u, h1, h2, h3⟩ := C83_rns_sum_partial rd hrd (exactMatrix P) hm 1 1 (by norm_num) (by norm_num) [2 ^ 254 - 1]
    [genExt] [G] hf rfl (by
      intro c hc
      rw [List.mem_singleton] at hc
      subst hc
      have : windowNum 1 = 254 := by decide +kernel
      rw [this]
      norm_num) runQ8 hrun
  refine ⟨q, u, h1, h2, ?_⟩
  have e : (∑ i ∈ Finset.range [G].length, [(2 : Int) ^ 254 - 1].getD i 0 • [G].getD i 0) = (2 ^ 254 - 1 : Int) • G := by
    simp
  rw [e] at h3
  exact h3

end Verif.Props
