import Verif.Lemmas.CkksSwitch
import Verif.Props.CkksKsk

/-!
# Property C45, key switching

`Rq k m` is `Z_m[X]/(X^(2^k) + 1)`; `ringOf k m f` is the element with slots `f`, `polyOf k m x` the one with integer
coefficients `x`.
-/

namespace Verif.Props
open Verif.Barrett Verif.NttBat Verif.Slots Verif.CkksKeys Verif.CkksMul Verif.Crt

/-- Limb `j` of `numQ` limbs cut into `dnum` parts of `⌈numQ / dnum⌉` belongs to part `j / ⌈numQ / dnum⌉`. -/
def InPart (numQ dnum part j : Nat) : Prop := j < numQ ∧ j / ((numQ + dnum - 1) / dnum) = part

instance (numQ dnum part j : Nat) : Decidable (InPart numQ dnum part j) := by unfold InPart; infer_instance

/-- The moduli of a part, and all other moduli. -/
def partModuli (q : List Nat) (dnum part : Nat) : List Nat :=
  ((List.range q.length).filter (fun j => InPart q.length dnum part j)).map (fun j => q.getD j 0)

def otherModuli (q p : List Nat) (dnum part : Nat) : List Nat :=
  ((List.range (q ++ p).length).filter (fun j => ¬ InPart q.length dnum part j)).map (fun j => (q ++ p).getD j 0)

/-- `keys` switch from the key with limbs `src` to the key with coefficients `s`, with errors `e`. -/
structure SwitchKey (k : Nat) (q p : List Nat) (dnum : Nat) (s : Nat → Int) (src : Mat) (e : Nat → Nat → Int)
    (keys : EvalKeys) : Prop where
  lenA : keys.a.length = dnum
  lenB : keys.b.length = dnum
  redA : ∀ part, part < dnum → Reduced k (q ++ p) (keys.a.getD part (fun _ _ => 0))
  redB : ∀ part, part < dnum → Reduced k (q ++ p) (keys.b.getD part (fun _ _ => 0))
  rel : ∀ part, part < dnum → ∀ i, i < (q ++ p).length →
    ringOf k ((q ++ p).getD i 0) (keys.b.getD part (fun _ _ => 0) i) +
      ringOf k ((q ++ p).getD i 0) (keys.a.getD part (fun _ _ => 0) i) * polyOf k ((q ++ p).getD i 0) s =
    polyOf k ((q ++ p).getD i 0) (e part) +
      (if InPart q.length dnum part i then
        (p.prod : Rq k ((q ++ p).getD i 0)) * ringOf k ((q ++ p).getD i 0) (src i) else 0)

/-- `gen_key_switching_key` returns such keys. -/
theorem C45_generated_keys (k : Nat) (q p : List Nat) (hq : Moduli k q) (hp : Moduli k p) (hne : q ≠ []) (dnum : Nat)
    (hd : 0 < dnum) (s : Nat → Int) (hs : Binary s) (dst : SecretKey) (hdst : HoldsKey k q s dst)
    (src : SecretKey) (hsrc : q.length = src.moduli.length) (hred : Reduced k q src.data)
    (rand : Nat → Mat × (Nat → Int)) :
    ∃ keys, genKsk (2 ^ k) src dst q p dnum rand none = .ok keys ∧
      SwitchKey k q p dnum s src.data (fun part => (rand part).2) keys := by
  obtain ⟨keys, h1, -, h3, h4, h5⟩ := C40_ksk k q p hq hp hne dnum hd s hs dst hdst src hsrc hred rand
  exact ⟨keys, h1, h3, h4, fun part hpt => (h5 part hpt).1, fun part hpt => (h5 part hpt).2.1,
    fun part hpt => (h5 part hpt).2.2⟩

theorem partIdx_eq (q : List Nat) (dnum part : Nat) (hd : 0 < dnum) :
    partIdx q.length dnum part = (List.range q.length).filter (fun j => InPart q.length dnum part j) := by
  have h1 : (partIdx q.length dnum part).Pairwise (· < ·) := by unfold partIdx; exact List.pairwise_lt_range'
  have h2 : ((List.range q.length).filter (fun j => decide (InPart q.length dnum part j))).Pairwise (· < ·) :=
    List.pairwise_lt_range.filter _
  have hn : ∀ {l : List Nat}, l.Pairwise (· < ·) → l.Nodup := fun h => h.imp (fun h => Nat.ne_of_lt h)
  refine List.Perm.eq_of_pairwise (le := (· < ·)) (fun a b _ _ h h' => absurd h (by omega)) h1 h2 ?_
  refine (List.perm_ext_iff_of_nodup (hn h1) (hn h2)).2 ?_
  intro j
  rw [List.mem_filter, List.mem_range, decide_eq_true_eq]
  constructor
  · intro h
    have hj : j < q.length := by have := mem_partIdx.1 h; omega
    exact ⟨hj, hj, (partIdx_iff hd hj).1 h⟩
  · rintro ⟨hj, -, h⟩
    exact (partIdx_iff hd hj).2 h

theorem inPart_iff {numQ dnum part j : Nat} (hd : 0 < dnum) : InPart numQ dnum part j ↔ j ∈ partIdx numQ dnum part := by
  constructor
  · rintro ⟨h1, h2⟩
    exact (partIdx_iff hd h1).2 h2
  · intro h
    have hj : j < numQ := by have := mem_partIdx.1 h; omega
    exact ⟨hj, (partIdx_iff hd hj).1 h⟩

theorem partModuli_eq (q p : List Nat) (dnum part : Nat) (hd : 0 < dnum) :
    partModuli q dnum part = (partIdx q.length dnum part).map (fun j => (q ++ p).getD j 0) := by
  unfold partModuli
  rw [← partIdx_eq q dnum part hd]
  apply List.map_congr_left
  intro j hj
  have := mem_partIdx.1 hj
  rw [getD_append_left (by omega)]

theorem otherModuli_eq (q p : List Nat) (dnum part : Nat) (hd : 0 < dnum) :
    otherModuli q p dnum part = (outIdx q.length (q ++ p).length dnum part).map (fun j => (q ++ p).getD j 0) := by
  unfold otherModuli
  congr 1
  unfold outIdx
  apply List.filter_congr
  intro j _
  have h := mem_partIdx (numQ := q.length) (dnum := dnum) (i := part) (j := j)
  rw [← inPart_iff hd] at h
  by_cases hc : InPart q.length dnum part j
  · have := h.1 hc
    simp [hc, this.1]
    omega
  · have := fun h' => hc (h.2 h')
    simp only [hc, not_false_eq_true, decide_true]
    symm
    rw [Bool.not_eq_true', Bool.and_eq_false_iff, decide_eq_false_iff_not, decide_eq_false_iff_not]
    by_contra hcc
    exact this (by omega)

/-- C45: `key_switch`. The result, under the new key `s`, is `P` times the message of `ct` under the old key on the limbs
of `Q` and zero on the limbs of `P`, plus one integer noise polynomial `ν` (the same for all limbs) bounded by
`Σ_part N · (#part · ∏ part) · B`, where `B` bounds the errors in the keys. -/
theorem C45_key_switch (kr kc : Nat) (q p : List Nat) (h : Basis kr kc q p) (dnum : Nat) (hd : 0 < dnum)
    (hparts : (dnum - 1) * ((q.length + dnum - 1) / dnum) < q.length)
    (bc : BcKernel) (start : Nat)
    (hbc : ∀ part, part < dnum → bc[start + part]? = some (partModuli q dnum part, otherModuli q p dnum part))
    (ct : Ciphertext) (hmod : ct.moduli = q) (h0 : Reduced (kr + kc) q ct.c0) (h1 : Reduced (kr + kc) q ct.c1)
    (s : Nat → Int) (src : Mat) (e : Nat → Nat → Int) (B : Int) (hB0 : 0 ≤ B)
    (hB : ∀ part, part < dnum → ∀ t, t < 2 ^ (kr + kc) → |e part t| ≤ B)
    (keys : EvalKeys) (hk : SwitchKey (kr + kc) q p dnum s src e keys) :
    ∃ S ct', precomputeSwitch q p dnum (2 ^ kr) (2 ^ kc) = .ok S ∧
      keySwitch S ct keys p bc (some (q ++ p)) start = .ok ct' ∧ ct'.moduli = q ++ p ∧
      Reduced (kr + kc) (q ++ p) ct'.c0 ∧ Reduced (kr + kc) (q ++ p) ct'.c1 ∧
      ∃ ν : Nat → Int,
        (∀ t, t < 2 ^ (kr + kc) → |ν t| ≤ ∑ part ∈ Finset.range dnum,
          2 ^ (kr + kc) * (((partModuli q dnum part).length * (partModuli q dnum part).prod : Nat) : Int) * B) ∧
        ∀ i, i < (q ++ p).length →
          ringOf (kr + kc) ((q ++ p).getD i 0) (ct'.c0 i) +
            ringOf (kr + kc) ((q ++ p).getD i 0) (ct'.c1 i) * polyOf (kr + kc) ((q ++ p).getD i 0) s =
          (if i < q.length then (p.prod : Rq (kr + kc) ((q ++ p).getD i 0)) *
            (ringOf (kr + kc) ((q ++ p).getD i 0) (ct.c0 i) +
              ringOf (kr + kc) ((q ++ p).getD i 0) (ct.c1 i) * ringOf (kr + kc) ((q ++ p).getD i 0) (src i)) else 0) +
          polyOf (kr + kc) ((q ++ p).getD i 0) ν := by
  have hgood : ∀ m ∈ q ++ p, GoodModulus m := fun m hm => (h.four m hm).good
  have hM := h.moduli
  have hlenq : (q ++ p).length = q.length + p.length := List.length_append
  -- the parts
  have hpart := fun part (hpt : part < dnum) => switchPart_spec h dnum hd hparts bc start part hpt
    (by rw [hbc part hpt, partModuli_eq q p dnum part hd, otherModuli_eq q p dnum part hd]) ct.c1 h1
  choose! M D hMD using hpart
  have hrb := fun part (hpt : part < dnum) => mulBarrett_spec (kr + kc) (q ++ p) hgood (keys.b.getD part (fun _ _ => 0))
    (M part) (hk.redB part hpt) (hMD part hpt).2.1
  have hra := fun part (hpt : part < dnum) => mulBarrett_spec (kr + kc) (q ++ p) hgood (keys.a.getD part (fun _ _ => 0))
    (M part) (hk.redA part hpt) (hMD part hpt).2.1
  choose! rb hrb' using hrb
  choose! ra hra' using hra
  -- the accumulators
  have hacc : ∀ (y : Nat → Mat) (key : Nat → Mat),
      (∀ part, part < dnum → ∀ i, i < (q ++ p).length → ∀ t, t < 2 ^ (kr + kc) →
        y part i t = key part i t * M part i t % (q ++ p).getD i 0) →
      ∀ i, i < (q ++ p).length → ∀ t, t < 2 ^ (kr + kc) →
        (List.range dnum).foldl (fun acc j => add64 acc (y j i t) % (q ++ p).getD i 0) 0 < (q ++ p).getD i 0 ∧
        (((List.range dnum).foldl (fun acc j => add64 acc (y j i t) % (q ++ p).getD i 0) 0 : Nat) : ZMod ((q ++ p).getD i 0)) =
          ∑ part ∈ Finset.range dnum, (key part i t : ZMod ((q ++ p).getD i 0)) * M part i t := by
    intro y key hy i hi t ht
    have hpos := (hM.at hi).1.prime.pos
    obtain ⟨g1, g2⟩ := fold_add_mod ((q ++ p).getD i 0) hpos (hM.at hi).2 (fun j => y j i t) dnum (by
      intro j hj
      rw [hy j hj i hi t ht]
      exact Nat.mod_lt _ hpos)
    refine ⟨g1, ?_⟩
    rw [g2]
    apply Finset.sum_congr rfl
    intro j hj
    rw [hy j (Finset.mem_range.1 hj) i hi t ht, ZMod.natCast_mod, Nat.cast_mul]
  obtain ⟨ks0, hks0⟩ : ∃ ks0 : Mat, ks0 = fun i t =>
    (List.range dnum).foldl (fun acc j => add64 acc (rb j i t) % (q ++ p).getD i 0) 0 := ⟨_, rfl⟩
  obtain ⟨ks1, hks1⟩ : ∃ ks1 : Mat, ks1 = fun i t =>
    (List.range dnum).foldl (fun acc j => add64 acc (ra j i t) % (q ++ p).getD i 0) 0 := ⟨_, rfl⟩
  have hacc0 := hacc rb (fun part => keys.b.getD part (fun _ _ => 0)) (fun part hpt => (hrb' part hpt).2)
  have hacc1 := hacc ra (fun part => keys.a.getD part (fun _ _ => 0)) (fun part hpt => (hra' part hpt).2)
  have hks0' : ∀ i t, (List.range dnum).foldl (fun acc j => add64 acc (rb j i t) % (q ++ p).getD i 0) 0 = ks0 i t := by
    intro i t; rw [hks0]
  have hks1' : ∀ i t, (List.range dnum).foldl (fun acc j => add64 acc (ra j i t) % (q ++ p).getD i 0) 0 = ks1 i t := by
    intro i t; rw [hks1]
  simp only [hks0'] at hacc0
  simp only [hks1'] at hacc1
  obtain ⟨pm, hpm⟩ : ∃ pm : Nat → Nat, pm = fun i =>
    p.foldl (fun acc m => mul64 acc (m % q.getD i 0) % q.getD i 0) 1 := ⟨_, rfl⟩
  obtain ⟨scaled, hscaled⟩ : ∃ scaled : Mat, scaled = fun i t =>
    if i < q.length then mul64 (ct.c0 i t) (pm i) % q.getD i 0 % 2 ^ 32 else 0 := ⟨_, rfl⟩
  have hsc : ∀ i, i < (q ++ p).length → ∀ t, t < 2 ^ (kr + kc) → scaled i t < (q ++ p).getD i 0 ∧
      (scaled i t : ZMod ((q ++ p).getD i 0)) = if i < q.length then (p.prod : ZMod ((q ++ p).getD i 0)) * ct.c0 i t else 0 := by
    intro i hi t ht
    have hpos := (hM.at hi).1.prime
    have hlt := (hM.at hi).2
    rw [hscaled]
    simp only
    split_ifs with hc
    · rw [getD_append_left hc] at hpos hlt ⊢
      have hx := h0 i hc t ht
      obtain ⟨g1, g2⟩ := fold_mul_mod (q.getD i 0) hpos.one_lt hlt p 1 hpos.one_lt
      have e1 : p.foldl (fun acc m => mul64 acc (m % q.getD i 0) % q.getD i 0) 1 = pm i := by rw [hpm]
      rw [e1] at g1 g2
      have hmod := Nat.mod_lt (ct.c0 i t * pm i) hpos.pos
      rw [mul64_eq (by omega) (by omega), Nat.mod_eq_of_lt (by omega : ct.c0 i t * pm i % q.getD i 0 < 2 ^ 32)]
      refine ⟨hmod, ?_⟩
      rw [ZMod.natCast_mod, Nat.cast_mul, g2, Nat.cast_one, one_mul, mul_comm]
    · exact ⟨hpos.pos, by simp⟩
  refine ⟨_, { c0 := fun i t => add64 (scaled i t) (ks0 i t) % (q ++ p).getD i 0 % 2 ^ 32,
               c1 := fun i t => ks1 i t % 2 ^ 32, moduli := q ++ p }, precomputeSwitch_ok h dnum hd hparts, ?_, rfl, ?_, ?_, ?_⟩
  · have hlenT : (switcherOf kr kc q p dnum).tablesQ.length = dnum := by unfold switcherOf; simp
    unfold keySwitch
    rw [hlenT, clampKeys_of_le hk.lenA.ge hk.lenB.ge]
    unfold keySwitchParts
    simp only [hlenT, hmod]
    rw [if_neg (by omega), if_neg (by rw [hk.lenA, hk.lenB]; omega)]
    simp only [bind, Except.bind, pure, Except.pure]
    rw [mapM_eq_map _ (fun i => (rb i, ra i)) (List.range dnum) (by
      intro i hi
      have hi' := List.mem_range.1 hi
      simp only [(hMD i hi').1, (hrb' i hi').1, (hra' i hi').1])]
    simp only
    have hget : ∀ j, j < dnum → ((List.range dnum).map (fun i => (rb i, ra i))).getD j (fun _ _ => 0, fun _ _ => 0) = (rb j, ra j) := by
      intro j hj
      rw [List.getD_eq_getElem _ _ (by simpa using hj), List.getElem_map, List.getElem_range]
    have hf : ∀ (sel : Mat × Mat → Mat) i t,
        (List.range dnum).foldl (fun acc j => add64 acc (sel (((List.range dnum).map (fun i => (rb i, ra i))).getD j
          (fun _ _ => 0, fun _ _ => 0)) i t) % (q ++ p).getD i 0) 0 =
        (List.range dnum).foldl (fun acc j => add64 acc (sel (rb j, ra j) i t) % (q ++ p).getD i 0) 0 := by
      intro sel i t
      apply List.foldl_ext
      intro acc j hj
      rw [hget j (List.mem_range.1 hj)]
    simp only [hf, hks0', hks1', hscaled, hpm]
  · intro i hi t ht
    have := (hM.at hi).1.prime.pos
    have hlt := (hM.at hi).2
    exact lt_of_le_of_lt (Nat.mod_le _ _) (Nat.mod_lt _ this)
  · intro i hi t ht
    exact lt_of_le_of_lt (Nat.mod_le _ _) (hacc1 i hi t ht).1
  · refine ⟨fun t => ∑ part ∈ Finset.range dnum, imul (kr + kc) (D part) (e part) t, ?_, ?_⟩
    · intro t ht
      refine (Finset.abs_sum_le_sum_abs _ _).trans (Finset.sum_le_sum ?_)
      intro part hpt
      have hpt' := Finset.mem_range.1 hpt
      refine imul_abs (kr + kc) _ _ _ B (Int.natCast_nonneg _) hB0 ?_ (hB part hpt') t
      intro u hu
      have := (hMD part hpt').2.2.1 u hu
      have hl : (partModuli q dnum part).length = (partIdx q.length dnum part).length := by
        rw [partModuli_eq q p dnum part hd, List.length_map]
      rw [hl, partModuli_eq q p dnum part hd, abs_of_nonneg this.1]
      exact this.2.le
    · intro i hi
      simp only
      have hN := (hM.at hi).1
      have hlt := (hM.at hi).2
      have e0 : ringOf (kr + kc) ((q ++ p).getD i 0) (fun t => add64 (scaled i t) (ks0 i t) % (q ++ p).getD i 0 % 2 ^ 32) =
          (if i < q.length then (p.prod : Rq (kr + kc) ((q ++ p).getD i 0)) * ringOf (kr + kc) ((q ++ p).getD i 0) (ct.c0 i) else 0) +
          ∑ part ∈ Finset.range dnum, ringOf (kr + kc) ((q ++ p).getD i 0) (keys.b.getD part (fun _ _ => 0) i) *
            polyOf (kr + kc) ((q ++ p).getD i 0) (D part) := by
        rw [ringOf_eq_iff hN]
        intro t ht
        have hs1 := hsc i hi t ht
        have hs2 := hacc0 i hi t ht
        have hmod := Nat.mod_lt (scaled i t + ks0 i t) hN.prime.pos
        have ha : add64 (scaled i t) (ks0 i t) = scaled i t + ks0 i t := by
          have := hs1.1
          have := hs2.1
          unfold add64; omega
        rw [ha, Nat.mod_eq_of_lt (by omega : _ < 2 ^ 32), ZMod.natCast_mod, Nat.cast_add, hs1.2, hs2.2, map_add, map_sum]
        congr 1
        · split_ifs
          · rw [map_mul, map_natCast, slot_ringOf hN _ t ht]
          · rw [map_zero]
        · apply Finset.sum_congr rfl
          intro part hpt
          rw [map_mul, ← (hMD part (Finset.mem_range.1 hpt)).2.2.2.1 i hi, slot_ringOf hN _ t ht, slot_ringOf hN _ t ht]
      have e1 : ringOf (kr + kc) ((q ++ p).getD i 0) (fun t => ks1 i t % 2 ^ 32) =
          ∑ part ∈ Finset.range dnum, ringOf (kr + kc) ((q ++ p).getD i 0) (keys.a.getD part (fun _ _ => 0) i) *
            polyOf (kr + kc) ((q ++ p).getD i 0) (D part) := by
        rw [ringOf_eq_iff hN]
        intro t ht
        have hs2 := hacc1 i hi t ht
        rw [Nat.mod_eq_of_lt (by omega : _ < 2 ^ 32), hs2.2, map_sum]
        apply Finset.sum_congr rfl
        intro part hpt
        rw [map_mul, ← (hMD part (Finset.mem_range.1 hpt)).2.2.2.1 i hi, slot_ringOf hN _ t ht, slot_ringOf hN _ t ht]
      rw [e0, e1, Finset.sum_mul, add_assoc, ← Finset.sum_add_distrib]
      have e2 : ∀ part ∈ Finset.range dnum,
          ringOf (kr + kc) ((q ++ p).getD i 0) (keys.b.getD part (fun _ _ => 0) i) * polyOf (kr + kc) ((q ++ p).getD i 0) (D part) +
          ringOf (kr + kc) ((q ++ p).getD i 0) (keys.a.getD part (fun _ _ => 0) i) * polyOf (kr + kc) ((q ++ p).getD i 0) (D part) *
            polyOf (kr + kc) ((q ++ p).getD i 0) s =
          polyOf (kr + kc) ((q ++ p).getD i 0) (imul (kr + kc) (D part) (e part)) +
          (if InPart q.length dnum part i then polyOf (kr + kc) ((q ++ p).getD i 0) (D part) *
            ((p.prod : Rq (kr + kc) ((q ++ p).getD i 0)) * ringOf (kr + kc) ((q ++ p).getD i 0) (src i)) else 0) := by
        intro part hpt
        have hr := hk.rel part (Finset.mem_range.1 hpt) i hi
        rw [polyOf_imul]
        calc _ = polyOf (kr + kc) ((q ++ p).getD i 0) (D part) *
            (ringOf (kr + kc) ((q ++ p).getD i 0) (keys.b.getD part (fun _ _ => 0) i) +
            ringOf (kr + kc) ((q ++ p).getD i 0) (keys.a.getD part (fun _ _ => 0) i) * polyOf (kr + kc) ((q ++ p).getD i 0) s) := by ring
          _ = _ := by
            rw [hr]
            split_ifs <;> ring
      rw [Finset.sum_congr rfl e2, Finset.sum_add_distrib, ← polyOf_sum]
      by_cases hc : i < q.length
      · rw [if_pos hc, if_pos hc]
        have hj0 := (C40_parts q.length dnum hd).1 i hc
        rw [Finset.sum_eq_single (i / ((q.length + dnum - 1) / dnum))]
        · have hin : InPart q.length dnum (i / ((q.length + dnum - 1) / dnum)) i := ⟨hc, rfl⟩
          rw [if_pos hin, ← (hMD _ hj0).2.2.2.1 i hi, (hMD _ hj0).2.2.2.2 i ((inPart_iff hd).1 hin)]
          ring
        · intro part _ hne
          rw [if_neg (fun hin => hne hin.2.symm)]
        · intro hn
          exact absurd (Finset.mem_range.2 hj0) hn
      · rw [if_neg hc, if_neg hc, Finset.sum_eq_zero]
        · ring
        · intro part _
          rw [if_neg (fun hin => hc hin.1)]

end Verif.Props
