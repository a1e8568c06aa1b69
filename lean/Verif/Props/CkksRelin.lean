import Verif.Lemmas.CkksRelin
import Verif.Props.CkksTensor

/-! # Property C45, relinearisation -/

namespace Verif.Props
open Verif.Barrett Verif.NttBat Verif.Slots Verif.CkksKeys Verif.CkksMul Verif.Crt

theorem slot_int {k m : Nat} (hN : NttPrime k m) {t : Nat} (c : Nat) : slot hN t (c : Rq k m) = (c : ZMod m) := map_natCast _ _

/-- C45: `relinearize`. The two components decrypt, under `s`, to `d0 + d1 s + d2 s^2` plus one integer polynomial `η`
(the same for all limbs) with `P |η| ≤ Σ_part N · (#part · ∏ part) · B + #P · P · (1 + N · Bs)`, where `B` bounds the
errors in the evaluation key and `Bs` the coefficients of the secret key (1 for the keys of this library). -/
theorem C45_relinearize (kr kc : Nat) (q p : List Nat) (h : Basis kr kc q p) (dnum : Nat) (hd : 0 < dnum)
    (original : List Nat) (deg : Nat) (hdrop : Dropped original deg q)
    (d0 d1 d2 : Mat) (h0 : Reduced (kr + kc) q d0) (h1 : Reduced (kr + kc) q d1) (h2 : Reduced (kr + kc) q d2)
    (s : Nat → Int) (Bs : Int) (hBs0 : 0 ≤ Bs) (hBs : ∀ t, t < 2 ^ (kr + kc) → |s t| ≤ Bs)
    (src : Mat) (hsrc : ∀ i, i < q.length → ringOf (kr + kc) (q.getD i 0) (src i) = polyOf (kr + kc) (q.getD i 0) s ^ 2)
    (e : Nat → Nat → Int) (B : Int) (hB0 : 0 ≤ B)
    (hB : ∀ part, part < dnum → ∀ t, t < 2 ^ (kr + kc) → |e part t| ≤ B)
    (keys : EvalKeys) (hk : SwitchKey (kr + kc) q p dnum s src e keys) :
    ∃ K r0 r1, precomputeMul original p dnum (2 ^ kr) (2 ^ kc) deg = .ok K ∧
      relinearize (some K) d0 d1 d2 keys = .ok (r0, r1) ∧
      Reduced (kr + kc) q r0 ∧ Reduced (kr + kc) q r1 ∧
      ∃ η : Nat → Int,
        (∀ t, t < 2 ^ (kr + kc) → (p.prod : Int) * |η t| ≤
          (∑ part ∈ Finset.range dnum,
            2 ^ (kr + kc) * (((partModuli q dnum part).length * (partModuli q dnum part).prod : Nat) : Int) * B) +
          ((p.length * p.prod : Nat) : Int) * (1 + 2 ^ (kr + kc) * Bs)) ∧
        ∀ i, i < q.length →
          ringOf (kr + kc) (q.getD i 0) (r0 i) + ringOf (kr + kc) (q.getD i 0) (r1 i) * polyOf (kr + kc) (q.getD i 0) s =
          ringOf (kr + kc) (q.getD i 0) (d0 i) + ringOf (kr + kc) (q.getD i 0) (d1 i) * polyOf (kr + kc) (q.getD i 0) s +
            ringOf (kr + kc) (q.getD i 0) (d2 i) * polyOf (kr + kc) (q.getD i 0) s ^ 2 +
          polyOf (kr + kc) (q.getD i 0) η := by
  have hqpos := List.length_pos_iff.2 h.neQ
  have hgood : ∀ m ∈ q ++ p, GoodModulus m := fun m hm => (h.four m hm).good
  have hM := h.moduli
  have hlenq : (q ++ p).length = q.length + p.length := List.length_append
  obtain ⟨hn1, hn2, -, hn4⟩ := partCount_spec hqpos hd
  obtain ⟨n, hn⟩ : ∃ n, n = partCount q.length dnum := ⟨_, rfl⟩
  rw [← hn] at hn1 hn2 hn4
  -- the parts
  have hpart := fun part (hpt : part < n) => extendPart_spec h dnum hd part (hn ▸ hpt) d2 h2
  choose! M D hMD using hpart
  -- the accumulators
  have hacc : ∀ (key : Nat → Mat), (∀ part, part < n → Reduced (kr + kc) (q ++ p) (key part)) →
      ∀ i, i < (q ++ p).length → ∀ t, t < 2 ^ (kr + kc) →
        modularReduction ((List.range n).foldl (fun acc part =>
          add64 acc (modularReduction (mul64 (M part i t) (key part i t)) (precompute ((q ++ p).getD i 0)))) 0)
          (precompute ((q ++ p).getD i 0)) < (q ++ p).getD i 0 ∧
        ((modularReduction ((List.range n).foldl (fun acc part =>
          add64 acc (modularReduction (mul64 (M part i t) (key part i t)) (precompute ((q ++ p).getD i 0)))) 0)
          (precompute ((q ++ p).getD i 0)) : Nat) : ZMod ((q ++ p).getD i 0)) =
          ∑ part ∈ Finset.range n, (key part i t : ZMod ((q ++ p).getD i 0)) * M part i t := by
    intro key hkey i hi t ht
    have hg := hgood _ (getD_mem hi)
    have hsz := h.size _ (getD_mem hi)
    have hm31 := hg.lt
    have hm2 := hg.pos
    obtain ⟨m, hmdef⟩ : ∃ m, m = (q ++ p).getD i 0 := ⟨_, rfl⟩
    rw [← hmdef] at hg hsz hm31 hm2 ⊢
    have hx : ∀ part, part < n → modularReduction (mul64 (M part i t) (key part i t)) (precompute m) =
        M part i t * key part i t % m := by
      intro part hpt
      have a1 := (hMD part hpt).2.1 i hi t ht
      have a2 := hkey part hpt i hi t ht
      rw [← hmdef] at a1 a2
      rw [mul64_eq (by omega) (by omega), C28_reduction_partial _ _ hg (lt_two_pow_of_lt_sq (Nat.mul_lt_mul'' a1 a2))]
    have hcl : m ≤ 2 ^ Nat.clog 2 m := Nat.le_pow_clog (by norm_num) m
    have hcl31 : Nat.clog 2 m ≤ 31 := (Nat.clog_le_iff_le_pow (by norm_num)).2 hm31.le
    have hnm : n * m < 2 ^ (2 * Nat.clog 2 m) := by
      have e1 : 2 ^ (2 * Nat.clog 2 m) = 2 ^ Nat.clog 2 m * 2 ^ Nat.clog 2 m := by ring
      rw [e1]
      refine Nat.mul_lt_mul_of_lt_of_le (by omega) hcl (by positivity)
    have hnm64 : n * m < 2 ^ 64 := lt_of_lt_of_le hnm (Nat.pow_le_pow_right (by norm_num) (by omega))
    obtain ⟨f1, f2⟩ := fold_add m (fun part => modularReduction (mul64 (M part i t) (key part i t)) (precompute m)) n
      (by intro j hj; simp only [hx j hj]; exact Nat.mod_lt _ (by omega)) hnm64
    rw [f1, C28_reduction_partial _ _ hg (lt_of_le_of_lt f2 hnm)]
    refine ⟨Nat.mod_lt _ (by omega), ?_⟩
    rw [ZMod.natCast_mod, Nat.cast_sum]
    apply Finset.sum_congr rfl
    intro j hj
    rw [hx j (Finset.mem_range.1 hj), ZMod.natCast_mod, Nat.cast_mul, mul_comm]
  obtain ⟨acc, haccdef⟩ : ∃ acc : (Nat → Mat) → Mat, acc = fun key i t =>
    modularReduction ((List.range n).foldl (fun acc part =>
          add64 acc (modularReduction (mul64 (M part i t) (key part i t)) (precompute ((q ++ p).getD i 0)))) 0)
          (precompute ((q ++ p).getD i 0)) := ⟨_, rfl⟩
  have hacc' : ∀ key i t, modularReduction ((List.range n).foldl (fun acc part =>
          add64 acc (modularReduction (mul64 (M part i t) (key part i t)) (precompute ((q ++ p).getD i 0)))) 0)
          (precompute ((q ++ p).getD i 0)) = acc key i t := by intro key i t; rw [haccdef]
  simp only [hacc'] at hacc
  obtain ⟨kb, hkb⟩ : ∃ kb : Nat → Mat, kb = fun part => keys.b.getD part (fun _ _ => 0) := ⟨_, rfl⟩
  obtain ⟨ka, hka⟩ : ∃ ka : Nat → Mat, ka = fun part => keys.a.getD part (fun _ _ => 0) := ⟨_, rfl⟩
  have hkb' : ∀ part, keys.b.getD part (fun _ _ => 0) = kb part := by intro part; rw [hkb]
  have hka' : ∀ part, keys.a.getD part (fun _ _ => 0) = ka part := by intro part; rw [hka]
  have hredB := hk.redB
  have hredA := hk.redA
  have hrel := hk.rel
  simp only [hkb', hka'] at hredB hredA hrel
  have hb := hacc kb (fun part hpt => hredB part (by omega))
  have ha := hacc ka (fun part hpt => hredA part (by omega))
  obtain ⟨conv0, X0, x01, x02, x03, x04⟩ := modDown_spec h (acc kb) (fun i hi t ht => (hb i hi t ht).1)
  obtain ⟨conv1, X1, x11, x12, x13, x14⟩ := modDown_spec h (acc ka) (fun i hi t ht => (ha i hi t ht).1)
  obtain ⟨new, hnew⟩ : ∃ new : Mat → Mat, new = fun conv i => nttFlat (2 ^ kr) (2 ^ kc) (q.getD i 0)
    (((q ++ p).map (tablesFor kr kc)).getD i Rescale.noTables) (conv i) := ⟨_, rfl⟩
  have hnew' : ∀ conv i, nttFlat (2 ^ kr) (2 ^ kc) (q.getD i 0)
    (((q ++ p).map (tablesFor kr kc)).getD i Rescale.noTables) (conv i) = new conv i := by intro conv i; rw [hnew]
  simp only [hnew'] at x04 x14
  obtain ⟨res, hres⟩ : ∃ res : Mat → Mat → Mat → Mat, res = fun d ks new i t =>
    (if (d i t + mul64 (if ks i t < new i t then (ks i t + q.getD i 0 + (2 ^ 32 - new i t)) % 2 ^ 32
        else ks i t - new i t) ((q.map (pInvFor p)).getD i 0) % q.getD i 0) % 2 ^ 32 ≥ q.getD i 0 then
      (d i t + mul64 (if ks i t < new i t then (ks i t + q.getD i 0 + (2 ^ 32 - new i t)) % 2 ^ 32
        else ks i t - new i t) ((q.map (pInvFor p)).getD i 0) % q.getD i 0) % 2 ^ 32 - q.getD i 0
     else (d i t + mul64 (if ks i t < new i t then (ks i t + q.getD i 0 + (2 ^ 32 - new i t)) % 2 ^ 32
        else ks i t - new i t) ((q.map (pInvFor p)).getD i 0) % q.getD i 0) % 2 ^ 32) := ⟨_, rfl⟩
  have hres_spec : ∀ (d ks nw : Mat) i, i < q.length → ∀ t, d i t < q.getD i 0 → ks i t < q.getD i 0 → nw i t < q.getD i 0 →
      res d ks nw i t < q.getD i 0 ∧ (p.prod : ZMod (q.getD i 0)) * (res d ks nw i t : ZMod (q.getD i 0)) =
        (p.prod : ZMod (q.getD i 0)) * d i t + (ks i t - nw i t) := by
    intro d ks nw i hi t hd' hks hnw
    have hg := hgood _ (List.mem_append_left p (getD_mem hi))
    obtain ⟨-, hpi, hpi2⟩ := pInvFor_spec h (getD_mem hi)
    have hgi : (q.map (pInvFor p)).getD i 0 = pInvFor p (q.getD i 0) := by
      rw [List.getD_eq_getElem _ _ (by simpa using hi), List.getElem_map, List.getD_eq_getElem _ _ hi]
    have hm31 := hg.lt
    rw [hres]
    simp only [hgi]
    generalize q.getD i 0 = m at *
    generalize pInvFor p m = v at *
    obtain ⟨sub, hsub⟩ : ∃ sub, sub = (if ks i t < nw i t then (ks i t + m + (2 ^ 32 - nw i t)) % 2 ^ 32
        else ks i t - nw i t) := ⟨_, rfl⟩
    rw [← hsub]
    have hsub' : sub < m ∧ (sub : ZMod m) = (ks i t : ZMod m) - nw i t := by
      rw [hsub]
      split_ifs with hc
      · have : (ks i t + m + (2 ^ 32 - nw i t)) % 2 ^ 32 = ks i t + m - nw i t := by omega
        rw [this]
        refine ⟨by omega, ?_⟩
        rw [Nat.cast_sub (by omega), Nat.cast_add, ZMod.natCast_self, add_zero]
      · refine ⟨by omega, ?_⟩
        rw [Nat.cast_sub (by omega)]
    rw [mul64_eq (by omega) (by omega)]
    have hmod := Nat.mod_lt (sub * v) (show 0 < m by omega)
    have hc2 : ((sub * v % m : Nat) : ZMod m) = ((ks i t : ZMod m) - nw i t) * v := by
      rw [ZMod.natCast_mod, Nat.cast_mul, hsub'.2]
    generalize sub * v % m = y at *
    rw [Nat.mod_eq_of_lt (by omega : d i t + y < 2 ^ 32)]
    have hfin : ∀ z : ZMod m, z = (d i t : ZMod m) + y → (p.prod : ZMod m) * z = (p.prod : ZMod m) * d i t + (ks i t - nw i t) := by
      rintro z rfl
      rw [mul_add, hc2, mul_comm ((ks i t : ZMod m) - nw i t), ← mul_assoc, hpi2, one_mul]
    split_ifs with hc
    · refine ⟨by omega, hfin _ ?_⟩
      rw [Nat.cast_sub (by omega), Nat.cast_add, ZMod.natCast_self, sub_zero]
    · refine ⟨by omega, hfin _ ?_⟩
      rw [Nat.cast_add]
  have hle : ∀ i, i < q.length → i < (q ++ p).length := fun i hi => by omega
  have hks_lt : ∀ key, (∀ i, i < (q ++ p).length → ∀ t, t < 2 ^ (kr + kc) → acc key i t < (q ++ p).getD i 0) →
      ∀ i, i < q.length → ∀ t, t < 2 ^ (kr + kc) → acc key i t < q.getD i 0 := by
    intro key hk2 i hi t ht
    have := hk2 i (hle i hi) t ht
    rwa [getD_append_left hi] at this
  have hr0 := fun i (hi : i < q.length) t (ht : t < 2 ^ (kr + kc)) => hres_spec d0 (acc kb) (new conv0) i hi t (h0 i hi t ht)
    (hks_lt kb (fun i hi t ht => (hb i hi t ht).1) i hi t ht) ((x04 i hi).1 t ht)
  have hr1 := fun i (hi : i < q.length) t (ht : t < 2 ^ (kr + kc)) => hres_spec d1 (acc ka) (new conv1) i hi t (h1 i hi t ht)
    (hks_lt ka (fun i hi t ht => (ha i hi t ht).1) i hi t ht) ((x14 i hi).1 t ht)
  refine ⟨_, res d0 (acc kb) (new conv0), res d1 (acc ka) (new conv1), precomputeMul_ok h dnum hd original deg hdrop, ?_,
    fun i hi t ht => (hr0 i hi t ht).1, fun i hi t ht => (hr1 i hi t ht).1, ?_⟩
  · have e1 : (kernelOf kr kc q p dnum).moduliQ = q := rfl
    have e2 : (kernelOf kr kc q p dnum).moduliP = p := rfl
    have e3 : (kernelOf kr kc q p dnum).r = 2 ^ kr := rfl
    have e4 : (kernelOf kr kc q p dnum).c = 2 ^ kc := rfl
    have e5 : (kernelOf kr kc q p dnum).tables = (q ++ p).map (tablesFor kr kc) := rfl
    have e6 : (kernelOf kr kc q p dnum).pInv = q.map (pInvFor p) := rfl
    have e7 : (kernelOf kr kc q p dnum).control.length - 1 = n := by
      rw [hn]; unfold kernelOf partCount; simp
    unfold relinearize
    rw [Option.map_some, Option.getD_some, e7, clampKeys_of_le (by rw [hk.lenA]; omega) (by rw [hk.lenB]; omega)]
    unfold relinearizeParts
    simp only [e1, e2, e3, e4, e5, e6, e7, hkb', hka']
    rw [if_neg (by rw [hk.lenA, hk.lenB]; omega)]
    simp only [bind, Except.bind, pure, Except.pure]
    rw [mapM_eq_map _ M (List.range n) (fun part hpt => (hMD part (List.mem_range.1 hpt)).1)]
    have hget : ∀ j, j < n → ((List.range n).map M).getD j (fun _ _ => 0) = M j := by
      intro j hj
      rw [List.getD_eq_getElem _ _ (by simpa using hj), List.getElem_map, List.getElem_range]
    have hf : ∀ (key : Nat → Mat) i t,
        (List.range n).foldl (fun acc part => add64 acc (modularReduction
          (mul64 (((List.range n).map M).getD part (fun _ _ => 0) i t) (key part i t)) (precompute ((q ++ p).getD i 0)))) 0 =
        (List.range n).foldl (fun acc part => add64 acc (modularReduction
          (mul64 (M part i t) (key part i t)) (precompute ((q ++ p).getD i 0)))) 0 := by
      intro key i t
      apply List.foldl_ext
      intro acc j hj
      rw [hget j (List.mem_range.1 hj)]
    simp only [hf, hacc', x01, x11, hnew', hres]
  -- the error
  obtain ⟨E, hE⟩ : ∃ E : Nat → Int, E = fun t =>
    ((∑ part ∈ Finset.range n, imul (kr + kc) (D part) (e part) t) - X0 t) - imul (kr + kc) X1 s t := ⟨_, rfl⟩
  have hpolyE : ∀ m, polyOf (kr + kc) m E =
      (∑ part ∈ Finset.range n, polyOf (kr + kc) m (imul (kr + kc) (D part) (e part))) - polyOf (kr + kc) m X0 -
        polyOf (kr + kc) m X1 * polyOf (kr + kc) m s := by
    intro m
    rw [hE, polyOf_sub, polyOf_sub, polyOf_sum, polyOf_imul]
  have hcore : ∀ i, i < (q ++ p).length →
      ringOf (kr + kc) ((q ++ p).getD i 0) (acc kb i) +
        ringOf (kr + kc) ((q ++ p).getD i 0) (acc ka i) * polyOf (kr + kc) ((q ++ p).getD i 0) s =
      (∑ part ∈ Finset.range n, polyOf (kr + kc) ((q ++ p).getD i 0) (imul (kr + kc) (D part) (e part))) +
      (if i < q.length then ringOf (kr + kc) ((q ++ p).getD i 0) (d2 i) * ((p.prod : Rq (kr + kc) ((q ++ p).getD i 0)) *
        ringOf (kr + kc) ((q ++ p).getD i 0) (src i)) else 0) := by
    intro i hi
    have hN := (hM.at hi).1
    have hsum : ∀ key : Nat → Mat, (∀ t, t < 2 ^ (kr + kc) → ((acc key i t : Nat) : ZMod ((q ++ p).getD i 0)) =
          ∑ part ∈ Finset.range n, (key part i t : ZMod ((q ++ p).getD i 0)) * M part i t) →
        ringOf (kr + kc) ((q ++ p).getD i 0) (acc key i) = ∑ part ∈ Finset.range n,
          ringOf (kr + kc) ((q ++ p).getD i 0) (key part i) * polyOf (kr + kc) ((q ++ p).getD i 0) (D part) := by
      intro key hkey
      rw [ringOf_eq_iff hN]
      intro t ht
      rw [hkey t ht, map_sum]
      apply Finset.sum_congr rfl
      intro part hpt
      rw [map_mul, ← (hMD part (Finset.mem_range.1 hpt)).2.2.2.1 i hi, slot_ringOf hN _ t ht, slot_ringOf hN _ t ht]
    rw [hsum kb (fun t ht => (hb i hi t ht).2), hsum ka (fun t ht => (ha i hi t ht).2), Finset.sum_mul, ← Finset.sum_add_distrib]
    have e2 : ∀ part ∈ Finset.range n,
        ringOf (kr + kc) ((q ++ p).getD i 0) (kb part i) * polyOf (kr + kc) ((q ++ p).getD i 0) (D part) +
        ringOf (kr + kc) ((q ++ p).getD i 0) (ka part i) * polyOf (kr + kc) ((q ++ p).getD i 0) (D part) *
          polyOf (kr + kc) ((q ++ p).getD i 0) s =
        polyOf (kr + kc) ((q ++ p).getD i 0) (imul (kr + kc) (D part) (e part)) +
        (if InPart q.length dnum part i then polyOf (kr + kc) ((q ++ p).getD i 0) (D part) *
          ((p.prod : Rq (kr + kc) ((q ++ p).getD i 0)) * ringOf (kr + kc) ((q ++ p).getD i 0) (src i)) else 0) := by
      intro part hpt
      have hr := hrel part (lt_of_lt_of_le (Finset.mem_range.1 hpt) hn1) i hi
      rw [polyOf_imul]
      calc _ = polyOf (kr + kc) ((q ++ p).getD i 0) (D part) *
          (ringOf (kr + kc) ((q ++ p).getD i 0) (kb part i) +
          ringOf (kr + kc) ((q ++ p).getD i 0) (ka part i) * polyOf (kr + kc) ((q ++ p).getD i 0) s) := by ring
        _ = _ := by
          rw [hr]
          split_ifs <;> ring
    rw [Finset.sum_congr rfl e2, Finset.sum_add_distrib]
    congr 1
    by_cases hc : i < q.length
    · rw [if_pos hc]
      have hj0 := hn4 i hc
      rw [Finset.sum_eq_single (i / partLen q.length dnum)]
      · have hin : InPart q.length dnum (i / partLen q.length dnum) i := ⟨hc, rfl⟩
        rw [if_pos hin, ← (hMD _ hj0).2.2.2.1 i hi, (hMD _ hj0).2.2.2.2 i ((inPart_iff hd).1 hin)]
      · intro part _ hne
        rw [if_neg (fun hin => hne hin.2.symm)]
      · intro hnn
        exact absurd (Finset.mem_range.2 hj0) hnn
    · rw [if_neg hc, Finset.sum_eq_zero]
      intro part _
      rw [if_neg (fun hin => hc hin.1)]
  -- divisibility
  have hdvd : ∀ t, t < 2 ^ (kr + kc) → (p.prod : Int) ∣ E t := by
    intro t ht
    apply prod_dvd_int p (pairwise_coprime (fun m hm => (h.four m (List.mem_append_right _ hm)).prime)
      (List.nodup_append'.1 h.nodup).2.1)
    intro m hm
    obtain ⟨j, hj, rfl⟩ := List.mem_iff_getElem.1 hm
    have hij : q.length + j < (q ++ p).length := by omega
    have hgm : (q ++ p).getD (q.length + j) 0 = p[j] := by
      rw [List.getD_eq_getElem?_getD, List.getElem?_append_right (by omega), Nat.add_sub_cancel_left,
        List.getElem?_eq_getElem hj, Option.getD_some]
    have hz : polyOf (kr + kc) p[j] E = polyOf (kr + kc) p[j] (fun _ => 0) := by
      have h5 := hcore _ hij
      rw [if_neg (by omega), x03 _ (by omega) hij, x13 _ (by omega) hij, hgm, add_zero] at h5
      rw [hpolyE, polyOf_zero, ← h5]
      ring
    have := polyOf_inj hz t ht
    rw [Int.zero_emod] at this
    exact Int.dvd_of_emod_eq_zero this
  refine ⟨fun t => E t / p.prod, ?_, ?_⟩
  · intro t ht
    have hPabs : (p.prod : Int) * |E t / (p.prod : Int)| = |E t| := by
      conv_rhs => rw [← Int.mul_ediv_cancel' (hdvd t ht), abs_mul]
      rw [Nat.abs_cast]
    rw [hPabs, hE]
    simp only
    have hY : (0 : Int) ≤ ((p.length * p.prod : Nat) : Int) := Int.natCast_nonneg _
    have b1 : |∑ part ∈ Finset.range n, imul (kr + kc) (D part) (e part) t| ≤ ∑ part ∈ Finset.range dnum,
          2 ^ (kr + kc) * (((partModuli q dnum part).length * (partModuli q dnum part).prod : Nat) : Int) * B := by
      refine (Finset.abs_sum_le_sum_abs _ _).trans ?_
      refine (Finset.sum_le_sum (fun part hpt => ?_)).trans
        (Finset.sum_le_sum_of_subset_of_nonneg (Finset.range_mono hn1) (fun part _ _ => by positivity))
      have hpt' := Finset.mem_range.1 hpt
      refine imul_abs (kr + kc) _ _ _ B (Int.natCast_nonneg _) hB0 ?_ (hB part (by omega)) t
      intro u hu
      have := (hMD part hpt').2.2.1 u hu
      have hl : (partModuli q dnum part).length = (partIdx q.length dnum part).length := by
        rw [partModuli_eq q p dnum part hd, List.length_map]
      rw [hl, partModuli_eq q p dnum part hd, abs_of_nonneg this.1]
      exact this.2.le
    have b2 : |X0 t| ≤ ((p.length * p.prod : Nat) : Int) := by
      have := x02 t ht
      rw [abs_of_nonneg this.1]; exact this.2.le
    have b3 : |imul (kr + kc) X1 s t| ≤ 2 ^ (kr + kc) * ((p.length * p.prod : Nat) : Int) * Bs := by
      refine imul_abs (kr + kc) _ _ _ Bs hY hBs0 ?_ hBs t
      intro u hu
      have := x12 u hu
      rw [abs_of_nonneg this.1]; exact this.2.le
    have b4 := abs_sub (∑ part ∈ Finset.range n, imul (kr + kc) (D part) (e part) t - X0 t) (imul (kr + kc) X1 s t)
    have b5 := abs_sub (∑ part ∈ Finset.range n, imul (kr + kc) (D part) (e part) t) (X0 t)
    calc _ ≤ _ := b4
      _ ≤ _ := by
        have : ((p.length * p.prod : Nat) : Int) * (1 + 2 ^ (kr + kc) * Bs) =
          ((p.length * p.prod : Nat) : Int) + 2 ^ (kr + kc) * ((p.length * p.prod : Nat) : Int) * Bs := by ring
        rw [this]
        linarith
  · intro i hi
    have hi' := hle i hi
    have hg := getD_append_left (p := p) hi
    have hN := (hM.at hi').1
    have h5 := hcore i hi'
    rw [if_pos hi, hg, hsrc i hi] at h5
    rw [hg] at hN
    have hPinv := (pInvFor_spec h (getD_mem hi)).2.2
    have hr0i := hr0 i hi
    have hr1i := hr1 i hi
    have x04i := (x04 i hi).2
    have x14i := (x14 i hi).2
    generalize q.getD i 0 = m at *
    have hunit : ∀ a b : Rq (kr + kc) m, (p.prod : Rq (kr + kc) m) * a = (p.prod : Rq (kr + kc) m) * b → a = b := by
      intro a b hab
      apply slot_ext hN
      intro t ht
      have := congrArg (slot hN t) hab
      rw [map_mul, map_mul, map_natCast] at this
      have h6 := congrArg (fun z => (pInvFor p m : ZMod m) * z) this
      simp only [← mul_assoc] at h6
      rw [mul_comm (pInvFor p m : ZMod m), hPinv, one_mul, one_mul] at h6
      exact h6
    apply hunit
    have hdown : ∀ (d ks nw r : Nat → Nat) (X : Nat → Int),
        (∀ t, t < 2 ^ (kr + kc) → (p.prod : ZMod m) * (r t : ZMod m) = (p.prod : ZMod m) * d t + (ks t - nw t)) →
        ringOf (kr + kc) m nw = polyOf (kr + kc) m X →
        (p.prod : Rq (kr + kc) m) * ringOf (kr + kc) m r =
          (p.prod : Rq (kr + kc) m) * ringOf (kr + kc) m d + (ringOf (kr + kc) m ks - polyOf (kr + kc) m X) := by
      intro d ks nw r X hr hX
      rw [← hX]
      apply slot_ext hN
      intro t ht
      simp only [map_mul, map_add, map_sub, map_natCast, slot_ringOf hN _ t ht]
      exact hr t ht
    have f0 := hdown (d0 i) (acc kb i) (new conv0 i) (res d0 (acc kb) (new conv0) i) X0 (fun t ht => (hr0i t ht).2) x04i
    have f1 := hdown (d1 i) (acc ka i) (new conv1 i) (res d1 (acc ka) (new conv1) i) X1 (fun t ht => (hr1i t ht).2) x14i
    have hη : (p.prod : Rq (kr + kc) m) * polyOf (kr + kc) m (fun t => E t / p.prod) = polyOf (kr + kc) m E := by
      have := polyOf_smul (k := kr + kc) (q := m) (p.prod : Int) (fun t => E t / p.prod)
      rw [Int.cast_natCast] at this
      rw [← this]
      apply polyOf_congr
      intro t ht
      rw [Int.mul_ediv_cancel' (hdvd t ht)]
    rw [mul_add, ← mul_assoc, f0, f1, mul_add, hη, hpolyE]
    linear_combination h5

/-- `gen_evaluation_key` returns keys switching from `s^2`. -/
theorem C45_generated_evaluation_key (k : Nat) (q p : List Nat) (hq : Moduli k q) (hp : Moduli k p) (hne : q ≠ [])
    (dnum : Nat) (hd : 0 < dnum) (s : Nat → Int) (hs : Binary s) (sk : SecretKey) (hsk : HoldsKey k q s sk)
    (rand : Nat → Mat × (Nat → Int)) :
    ∃ keys src, genEvaluationKey (2 ^ k) sk q p dnum rand = .ok keys ∧
      (∀ i, i < q.length → ringOf k (q.getD i 0) (src i) = polyOf k (q.getD i 0) s ^ 2) ∧
      SwitchKey k q p dnum s src (fun part => (rand part).2) keys := by
  have hlen : q.length = sk.moduli.length := by rw [hsk.moduli]
  obtain ⟨keys, h1, h2⟩ := C45_generated_keys k q p hq hp hne dnum hd s hs sk hsk
    { data := fun i t => mul64 (sk.data i t) (sk.data i t) % q.getD i 0, moduli := sk.moduli } hlen
    (fun i hi t _ => Nat.mod_lt _ (hq.at hi).1.prime.pos) rand
  refine ⟨keys, _, ?_, ?_, h2⟩
  · unfold genEvaluationKey
    rw [if_neg (by omega)]
    exact h1
  · intro i hi
    obtain ⟨hpr, hlt⟩ := hq.at hi
    rw [← hsk.ring i hi, ringOf_eq_iff hpr]
    intro t ht
    have hb := hsk.reduced i hi t ht
    rw [map_pow, slot_ringOf hpr _ t ht]
    simp only
    rw [mul64_eq (by omega) (by omega), ZMod.natCast_mod, Nat.cast_mul, sq]

/-- C45: the whole multiplication. With a generated evaluation key, `relinearize (tensor_multiply A B)` decrypts to the
product of the decryptions plus `η`. -/
theorem C45_multiply (kr kc : Nat) (q p : List Nat) (h : Basis kr kc q p) (dnum : Nat) (hd : 0 < dnum)
    (original : List Nat) (deg : Nat) (hdrop : Dropped original deg q)
    (A C : Ciphertext) (hA : A.moduli = q)
    (hA0 : Reduced (kr + kc) q A.c0) (hA1 : Reduced (kr + kc) q A.c1)
    (hC0 : Reduced (kr + kc) q C.c0) (hC1 : Reduced (kr + kc) q C.c1)
    (s : Nat → Int) (hs : Binary s) (sk : SecretKey) (hsk : HoldsKey (kr + kc) q s sk)
    (rand : Nat → Mat × (Nat → Int)) (B : Int) (hB0 : 0 ≤ B)
    (hB : ∀ part, part < dnum → ∀ t, t < 2 ^ (kr + kc) → |(rand part).2 t| ≤ B) :
    ∃ K keys t0 t1 t2 r0 r1, precomputeMul original p dnum (2 ^ kr) (2 ^ kc) deg = .ok K ∧
      genEvaluationKey (2 ^ (kr + kc)) sk q p dnum rand = .ok keys ∧
      tensorMultiply (some K) A C = .ok (t0, t1, t2) ∧ relinearize (some K) t0 t1 t2 keys = .ok (r0, r1) ∧
      Reduced (kr + kc) q r0 ∧ Reduced (kr + kc) q r1 ∧
      ∃ η : Nat → Int,
        (∀ t, t < 2 ^ (kr + kc) → (p.prod : Int) * |η t| ≤
          (∑ part ∈ Finset.range dnum,
            2 ^ (kr + kc) * (((partModuli q dnum part).length * (partModuli q dnum part).prod : Nat) : Int) * B) +
          ((p.length * p.prod : Nat) : Int) * (1 + 2 ^ (kr + kc))) ∧
        ∀ i, i < q.length →
          ringOf (kr + kc) (q.getD i 0) (r0 i) + ringOf (kr + kc) (q.getD i 0) (r1 i) * polyOf (kr + kc) (q.getD i 0) s =
          (ringOf (kr + kc) (q.getD i 0) (A.c0 i) + ringOf (kr + kc) (q.getD i 0) (A.c1 i) * polyOf (kr + kc) (q.getD i 0) s) *
          (ringOf (kr + kc) (q.getD i 0) (C.c0 i) + ringOf (kr + kc) (q.getD i 0) (C.c1 i) * polyOf (kr + kc) (q.getD i 0) s) +
          polyOf (kr + kc) (q.getD i 0) η := by
  obtain ⟨keys, src, g1, g2, g3⟩ := C45_generated_evaluation_key (kr + kc) q p h.left h.right h.neQ dnum hd s hs sk hsk rand
  have hKx := precomputeMul_ok h dnum hd original deg hdrop
  obtain ⟨t0, t1, t2, f1, f2, f3, f4, f5⟩ := C44_tensor_decrypts (kr + kc) (kernelOf kr kc q p dnum) A C (by rw [hA]; exact h.left)
    (fun m hm => by rw [hA] at hm; exact (h.four m (List.mem_append_left _ hm)).good.lt)
    (by rw [hA]; exact hA0) (by rw [hA]; exact hA1) (by rw [hA]; exact hC0) (by rw [hA]; exact hC1)
  rw [hA] at f2 f3 f4 f5
  obtain ⟨K, r0, r1, e1, e2, e3, e4, η, e5, e6⟩ := C45_relinearize kr kc q p h dnum hd original deg hdrop t0 t1 t2 f2 f3 f4
    s 1 (by norm_num) (fun t _ => by rcases hs t with h | h <;> rw [h] <;> norm_num) src g2 _ B hB0 hB keys g3
  have hKK : K = kernelOf kr kc q p dnum := Except.ok.inj (e1.symm.trans hKx)
  subst hKK
  refine ⟨_, keys, t0, t1, t2, r0, r1, e1, g1, f1, e2, e3, e4, η, ?_, ?_⟩
  · intro t ht
    have := e5 t ht
    rwa [mul_one] at this
  · intro i hi
    rw [e6 i hi, f5 i hi]

/-- C45: the kernel is refused if no moduli remain. In particular `composite_degree = 0` drops all of them (`[:-0]`), not none. -/
theorem C45_nothing_left (original p : List Nat) (dnum r c deg : Nat) (h : deg = 0 ∨ original.length ≤ deg) :
    ∃ e, precomputeMul original p dnum r c deg = .error e := by
  have hq : dropLastModuli original deg = [] := by
    unfold dropLastModuli
    split
    · rfl
    · rw [Nat.sub_eq_zero_of_le (by omega), List.take_zero]
  have hc : ∃ e, controlIndices ([] : List Nat).length p.length dnum = .error e := by
    refine ⟨"ZeroDivisionError", ?_⟩
    unfold controlIndices
    by_cases hd : dnum = 0
    · rw [if_pos hd]
    · have : (([] : List Nat).length + dnum - 1) / dnum = 0 := Nat.div_eq_of_lt (by simp; omega)
      rw [if_neg hd]
      simp only [this, if_true]
  obtain ⟨e, he⟩ := hc
  unfold precomputeMul
  rw [hq]
  dsimp only
  split
  · exact ⟨_, rfl⟩
  · rw [he]; exact ⟨e, rfl⟩

example : ∃ e, precomputeMul [12289, 40961, 65537] [786433] 2 2 2 0 = .error e := C45_nothing_left _ _ _ _ _ _ (.inl rfl)

/-- C45: a missing kernel, a key without parts, a missing conversion control or missing multiplication constants are
errors; so is a `dnum` that leaves the last part without limbs. -/
theorem C45_rejects (q p : List Nat) (dnum r c : Nat) (d0 d1 d2 : Mat) (keys : EvalKeys) (S : KeySwitcher) (ct : Ciphertext)
    (bc : BcKernel) (ms : Option (List Nat)) (start : Nat) :
    relinearize none d0 d1 d2 keys = .error "ValueError" ∧
    (∀ K, 0 < K.control.length - 1 → keys.a = [] → relinearize (some K) d0 d1 d2 keys = .error "IndexError") ∧
    (0 < S.tablesQ.length → keys.b = [] → keySwitch S ct keys p bc ms start = .error "IndexError") ∧
    (0 < S.tablesQ.length → bc.length ≤ start → ∃ e, keySwitch S ct keys p bc ms start = .error e) ∧
    (0 < S.tablesQ.length → ∃ e, keySwitch S ct keys p bc none start = .error e) ∧
    (0 < dnum → q.length ≤ (dnum - 1) * ((q.length + dnum - 1) / dnum) → ∃ e, precomputeSwitch q p dnum r c = .error e) := by
  have hhead : ∀ {α : Type} (f : Nat → Except String α) (l : List Nat) (x : Nat), x ∈ l → (∃ e, f x = .error e) →
      ∃ e, l.mapM f = .error e := by
    intro α f l
    induction l with
    | nil => intro x hx; exact absurd hx (by simp)
    | cons a l ih =>
      rintro x hx ⟨e, he⟩
      rw [List.mapM_cons]
      cases hfa : f a with
      | error e' => exact ⟨e', rfl⟩
      | ok v =>
        rcases List.mem_cons.1 hx with rfl | hx
        · rw [he] at hfa; exact absurd hfa (by simp)
        · obtain ⟨e', he'⟩ := ih x hx ⟨e, he⟩
          rw [he']
          exact ⟨e', rfl⟩
  refine ⟨rfl, ?_, ?_, ?_, ?_, ?_⟩
  · intro K hn hK
    unfold relinearize relinearizeParts
    simp only [Option.map_some, Option.getD_some]
    rw [if_pos (Or.inl (by unfold clampKeys clampParts; rw [hK]; exact hn))]
    rfl
  · intro h0 hK
    unfold keySwitch keySwitchParts
    simp only
    rw [if_neg (by omega), if_pos (Or.inr (by unfold clampKeys clampParts; rw [hK]; exact h0))]
    rfl
  · intro h0 hbc
    unfold keySwitch
    generalize clampKeys S.tablesQ.length keys = keys
    unfold keySwitchParts
    simp only
    rw [if_neg (by omega)]
    split_ifs
    · exact ⟨_, rfl⟩
    · obtain ⟨e, he⟩ := hhead (fun (i : Nat) => (do
          let part ← switchPart S ct.moduli p bc start i ct.c1
          let b ← mulBarrett ms (ct.moduli ++ p) (ct.moduli ++ p) (keys.b.getD i (fun _ _ => 0)) part
          let a ← mulBarrett ms (ct.moduli ++ p) (ct.moduli ++ p) (keys.a.getD i (fun _ _ => 0)) part
          pure (b, a))) (List.range S.tablesQ.length) 0 (List.mem_range.2 h0) (by
        have : ∃ e, switchPart S ct.moduli p bc start 0 ct.c1 = .error e := by
          unfold switchPart
          simp only
          split_ifs
          · exact ⟨_, rfl⟩
          · rw [List.getElem?_eq_none (by omega)]
            exact ⟨_, rfl⟩
        obtain ⟨e, he⟩ := this
        exact ⟨e, by simp only [he]; rfl⟩)
      refine ⟨e, ?_⟩
      change Except.bind (List.mapM _ _) _ = _
      rw [he]
      rfl
  · intro h0
    unfold keySwitch
    generalize clampKeys S.tablesQ.length keys = keys
    unfold keySwitchParts
    simp only
    rw [if_neg (by omega)]
    split_ifs
    · exact ⟨_, rfl⟩
    · obtain ⟨e, he⟩ := hhead (fun (i : Nat) => (do
          let part ← switchPart S ct.moduli p bc start i ct.c1
          let b ← mulBarrett none (ct.moduli ++ p) (ct.moduli ++ p) (keys.b.getD i (fun _ _ => 0)) part
          let a ← mulBarrett none (ct.moduli ++ p) (ct.moduli ++ p) (keys.a.getD i (fun _ _ => 0)) part
          pure (b, a))) (List.range S.tablesQ.length) 0 (List.mem_range.2 h0) (by
        cases hs : switchPart S ct.moduli p bc start 0 ct.c1 with
        | error e => exact ⟨e, rfl⟩
        | ok v => exact ⟨"ValueError", rfl⟩)
      refine ⟨e, ?_⟩
      change Except.bind (List.mapM _ _) _ = _
      rw [he]
      rfl
  · intro hd hq
    unfold precomputeSwitch
    rw [if_neg (by omega)]
    dsimp only
    obtain ⟨e, he⟩ := hhead (fun (i : Nat) => (do
      if ((List.range' (i * ((q.length + dnum - 1) / dnum)) (min (i * ((q.length + dnum - 1) / dnum) + (q.length + dnum - 1) / dnum) q.length -
          i * ((q.length + dnum - 1) / dnum))).map (fun j => q.getD j 0)) = [] ∨
          ((List.range (q ++ p).length).filter (fun j => !(decide (i * ((q.length + dnum - 1) / dnum) ≤ j) && decide (j <
            min (i * ((q.length + dnum - 1) / dnum) + (q.length + dnum - 1) / dnum) q.length)))).map (fun j => (q ++ p).getD j 0) = [] then
        throw "ValueError"
      let tq ← ((List.range' (i * ((q.length + dnum - 1) / dnum)) (min (i * ((q.length + dnum - 1) / dnum) + (q.length + dnum - 1) / dnum) q.length -
          i * ((q.length + dnum - 1) / dnum))).map (fun j => q.getD j 0)).mapM (fun (m : Nat) => precomputeTables r c m)
      let tout ← (((List.range (q ++ p).length).filter (fun j => !(decide (i * ((q.length + dnum - 1) / dnum) ≤ j) && decide (j <
            min (i * ((q.length + dnum - 1) / dnum) + (q.length + dnum - 1) / dnum) q.length)))).map (fun j => (q ++ p).getD j 0)).mapM
              (fun (m : Nat) => precomputeTables r c m)
      pure ((tq, tout), ((List.range' (i * ((q.length + dnum - 1) / dnum)) (min (i * ((q.length + dnum - 1) / dnum) + (q.length + dnum - 1) / dnum) q.length -
          i * ((q.length + dnum - 1) / dnum))).map (fun j => q.getD j 0),
        ((List.range (q ++ p).length).filter (fun j => !(decide (i * ((q.length + dnum - 1) / dnum) ≤ j) && decide (j <
            min (i * ((q.length + dnum - 1) / dnum) + (q.length + dnum - 1) / dnum) q.length)))).map (fun j => (q ++ p).getD j 0))))) (List.range dnum) (dnum - 1) (List.mem_range.2 (by omega)) (by
        refine ⟨"ValueError", ?_⟩
        rw [if_pos]
        · rfl
        · left
          have : min ((dnum - 1) * ((q.length + dnum - 1) / dnum) + (q.length + dnum - 1) / dnum) q.length -
            (dnum - 1) * ((q.length + dnum - 1) / dnum) = 0 := by omega
          rw [this]; rfl)
    refine ⟨e, ?_⟩
    change Except.bind (List.mapM _ _) _ = _
    rw [he]
    rfl

/-- A key with fewer parts than the kernel is used as if its last part were repeated: JAX clamps the index of a part. No
exception reports such a key, in `relinearize` and in `key_switch`. -/
theorem C45_short_key (K : Kernel) (S : KeySwitcher) (d0 d1 d2 : Mat) (keys : EvalKeys) (ha : keys.a ≠ []) (hb : keys.b ≠ [])
    (ct : Ciphertext) (p : List Nat) (bc : BcKernel) (ms : Option (List Nat)) (start : Nat) :
    (keys.a.length ≤ K.control.length - 1 → keys.b.length ≤ K.control.length - 1 →
      relinearize (some K) d0 d1 d2 keys = relinearize (some K) d0 d1 d2
        { keys with a := (List.range (K.control.length - 1)).map (fun i => keys.a.getD (min i (keys.a.length - 1)) (fun _ _ => 0)),
                    b := (List.range (K.control.length - 1)).map (fun i => keys.b.getD (min i (keys.b.length - 1)) (fun _ _ => 0)) }) ∧
    (keys.a.length ≤ S.tablesQ.length → keys.b.length ≤ S.tablesQ.length →
      keySwitch S ct keys p bc ms start = keySwitch S ct
        { keys with a := (List.range S.tablesQ.length).map (fun i => keys.a.getD (min i (keys.a.length - 1)) (fun _ _ => 0)),
                    b := (List.range S.tablesQ.length).map (fun i => keys.b.getD (min i (keys.b.length - 1)) (fun _ _ => 0)) }
        p bc ms start) := by
  have key : ∀ (n : Nat) (l : List Mat), l ≠ [] → l.length ≤ n →
      clampParts n l = (List.range n).map (fun i => l.getD (min i (l.length - 1)) (fun _ _ => 0)) := by
    intro n l hne hl
    have hpos := List.length_pos_iff.2 hne
    unfold clampParts
    rw [List.getLast?_eq_some_getLast hne]
    apply List.ext_getElem
    · simp; omega
    · intro i h1 h2
      simp only [List.length_map, List.length_range] at h2
      simp only [List.getElem_map, List.getElem_range]
      rcases Nat.lt_or_ge i l.length with hi | hi
      · rw [List.getElem_append_left hi, Nat.min_eq_left (by omega), List.getD_eq_getElem _ _ hi]
      · rw [List.getElem_append_right hi, List.getElem_replicate, Nat.min_eq_right (by omega),
          List.getD_eq_getElem _ _ (by omega), List.getLast_eq_getElem]
  constructor
  · intro h1 h2
    unfold relinearize
    simp only [Option.map_some, Option.getD_some]
    conv_rhs => rw [clampKeys_of_le (by simp) (by simp)]
    unfold clampKeys
    rw [key _ _ ha h1, key _ _ hb h2]
  · intro h1 h2
    unfold keySwitch
    conv_rhs => rw [clampKeys_of_le (by simp) (by simp)]
    unfold clampKeys
    rw [key _ _ ha h1, key _ _ hb h2]

/-- A key of two parts for a kernel of three. -/
example : clampParts 3 [fun _ _ => 1, fun _ _ => 2] = [fun _ _ => 1, fun _ _ => 2, fun _ _ => 2] := rfl

theorem fourStep_12289 : FourStep 0 1 12289 :=
  ⟨PrimeCheck.prime_of_noDiv _ 7 (by norm_num) (by decide +kernel) (by norm_num), by decide,
    ⟨by norm_num, by norm_num, by decide +kernel⟩, by decide +kernel, by decide +kernel, by norm_num, by norm_num⟩

theorem fourStep_40961 : FourStep 0 1 40961 :=
  ⟨PrimeCheck.prime_of_noDiv _ 8 (by norm_num) (by decide +kernel) (by norm_num), by decide,
    ⟨by norm_num, by norm_num, by decide +kernel⟩, by decide +kernel, by decide +kernel, by norm_num, by norm_num⟩

theorem fourStep_65537 : FourStep 0 1 65537 :=
  ⟨PrimeCheck.prime_of_noDiv _ 9 (by norm_num) (by decide +kernel) (by norm_num), by decide,
    ⟨by norm_num, by norm_num, by decide +kernel⟩, by decide +kernel, by decide +kernel, by norm_num, by norm_num⟩

/-- A basis with two limbs and one extension limb. -/
theorem basis_example : Basis 0 1 [12289, 40961] [65537] :=
  ⟨by intro m hm; simp at hm; rcases hm with rfl | rfl | rfl; exacts [fourStep_12289, fourStep_40961, fourStep_65537],
    by decide, by intro m hm; simp at hm; rcases hm with rfl | rfl | rfl <;> decide +kernel, by norm_num, by simp, by simp⟩

/-- All hypotheses of `C45_key_switch`, `C45_relinearize` and `C45_multiply` on the basis and the keys are met, with two
parts and a non-zero secret. -/
example : ∃ (s : Nat → Int) (sk : SecretKey), Binary s ∧ s 1 = 1 ∧ HoldsKey 1 [12289, 40961] s sk ∧
    (2 - 1) * (([12289, 40961].length + 2 - 1) / 2) < [12289, 40961].length ∧
    Dropped [12289, 40961, 65537] 1 [12289, 40961] ∧
    partModuli [12289, 40961] 2 1 = [40961] ∧ otherModuli [12289, 40961] [65537] 2 1 = [12289, 65537] := by
  obtain ⟨pk, sk, -, h⟩ := C40_keygen_holds 1 [12289, 40961] basis_example.left (fun p => if p = 1 then 1 else 0) (fun _ => 0) (fun _ _ => 0)
  exact ⟨fun p => if p = 1 then 1 else 0, sk, fun p => by by_cases hp : p = 1 <;> simp [hp], rfl, h, by decide,
    ⟨by decide, [65537], rfl, rfl⟩, by decide, by decide⟩

end Verif.Props
