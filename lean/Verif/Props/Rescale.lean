import Verif.Model.Rescale
import Verif.Lemmas.Slots
import Verif.Lemmas.Crt
import Verif.Props.Crt
import Mathlib.Data.ZMod.Coprime

/-!
# Property C38: rescaling divides by the dropped modulus, rounding to nearest
-/

namespace Verif.Props
open Verif.CkksMath Verif.Barrett Verif.NttBat Verif.Rescale Verif.Slots Finset

/-- The quotient rounded to nearest: `(x - (x cmod q)) / q` with the centred remainder in `[-q/2, q/2)`. -/
def divRound (x : Int) (q : Nat) : Int := (x - Int.bmod x q) / (q : Int)

theorem mul_divRound (x : Int) (q : Nat) : (q : Int) * divRound x q = x - Int.bmod x q := by
  unfold divRound
  apply Int.mul_ediv_cancel'
  exact Int.dvd_self_sub_bmod

/-- It is the nearest integer. -/
theorem divRound_nearest (x : Int) (q : Nat) (hq : 0 < q) : 2 * |x - q * divRound x q| ≤ q := by
  rw [mul_divRound, sub_sub_cancel]
  have h1 := Int.le_bmod (x := x) hq
  have h2 := Int.bmod_lt (x := x) hq
  have : |Int.bmod x q| ≤ (q : Int) / 2 := by
    rw [abs_le]
    constructor <;> omega
  omega

/-- Dropping the last `n` moduli one after the other. -/
def divRounds : Nat → List Nat → Int → Int
  | 0, _, x => x
  | n + 1, ms, x => divRounds n ms.dropLast (divRound x (ms.getD (ms.length - 1) 0))

theorem gammaBeta_ok (rest : List Nat) (qL : Nat) (hne : rest ≠ []) (hp : ∀ m ∈ rest ++ [qL], m.Prime)
    (hnd : (rest ++ [qL]).Nodup) :
    ∃ g b, gammaBeta (rest ++ [qL]) = .ok (g, b) ∧ ∀ i (hi : i < rest.length),
      g.getD i 0 < rest[i] ∧ b.getD i 0 < rest[i] ∧ ((b.getD i 0 : Nat) : ZMod rest[i]) * (qL : ZMod rest[i]) = 1 ∧
      ((g.getD i 0 : Nat) : ZMod rest[i]) = -((b.getD i 0 : Nat) : ZMod rest[i]) := by
  have hlen : ¬ (rest ++ [qL]).length ≤ 1 := by
    have := List.length_pos_iff.2 hne
    simp; omega
  have hL : qL.Prime := hp qL (by simp)
  have hlast : (rest ++ [qL]).getD ((rest ++ [qL]).length - 1) 0 = qL := by
    simp [List.getD_eq_getElem?_getD]
  have hdrop : (rest ++ [qL]).dropLast = rest := by simp
  have hco : ∀ m ∈ rest, Nat.Coprime m qL := by
    intro m hm
    rw [Nat.coprime_primes (hp m (by simp [hm])) hL]
    rintro rfl
    rw [List.nodup_append] at hnd
    exact hnd.2.2 m hm m (by simp) rfl
  have hcoP : Nat.Coprime (Crt.product rest) qL := by
    rw [Crt.product_eq]
    exact Nat.coprime_list_prod_left_iff.2 hco
  obtain ⟨inv, i1, i2, i3, i4⟩ := invMod_ok ((Crt.product rest : Nat) : Int) qL hL.pos (by
    rw [Int.gcd_natCast_natCast]; exact hcoP)
  have hdvd : (qL : Int) ∣ ((Crt.product rest : Nat) : Int) * inv - 1 := by
    rw [← ZMod.intCast_zmod_eq_zero_iff_dvd] 
    rw [Int.cast_sub, Int.cast_mul, i4, Int.cast_one, sub_self]
  obtain ⟨gc, hgc⟩ : ∃ gc, gc = (((Crt.product rest : Nat) : Int) * inv - 1) / (qL : Int) := ⟨_, rfl⟩
  have hgc' : (qL : Int) * gc = ((Crt.product rest : Nat) : Int) * inv - 1 := by
    rw [hgc]; exact Int.mul_ediv_cancel' hdvd
  have hb : ∀ m ∈ rest, ∃ y : Nat, (invMod (qL : Int) m).map Int.toNat = .ok y ∧ y < m ∧ (y : ZMod m) * (qL : ZMod m) = 1 := by
    intro m hm
    obtain ⟨y, y1, y2, y3, y4⟩ := invMod_ok (qL : Int) m (hp m (by simp [hm])).pos (by
      rw [Int.gcd_natCast_natCast]; exact (hco m hm).symm)
    refine ⟨y.toNat, by rw [y1]; rfl, by omega, ?_⟩
    rw [cast_toNat y2, mul_comm, ← y4, Int.cast_natCast]
  obtain ⟨bs, b1, b2, b3⟩ := Crt.mapM_ok (fun (m : Nat) => (invMod (qL : Int) m).map Int.toNat) rest
    (fun m hm => by obtain ⟨y, h1, -⟩ := hb m hm; exact ⟨y, h1⟩)
  refine ⟨rest.map (fun (m : Nat) => (gc % (m : Int)).toNat), bs, ?_, ?_⟩
  · unfold gammaBeta
    rw [if_neg hlen]
    simp only [hlast, hdrop, i1, bind, Except.bind]
    rw [b1]
    simp only [pure, Except.pure, hgc]
  · intro i hi
    have hm := hp rest[i] (by simp)
    have hbi : bs.getD i 0 = bs[i] := by simp [List.getD_eq_getElem?_getD, b2, hi]
    obtain ⟨y, y1, b4, b5⟩ := hb rest[i] (List.getElem_mem hi)
    rw [b3 i hi (by omega)] at y1
    have y1 := Except.ok.inj y1
    rw [← y1] at b4 b5
    have hgi : (rest.map (fun (m : Nat) => (gc % (m : Int)).toNat)).getD i 0 = (gc % (rest[i] : Int)).toNat := by
      simp [List.getD_eq_getElem?_getD, hi]
    rw [hbi, hgi]
    have eb := emod_bounds hm.pos gc
    refine ⟨by omega, b4, b5, ?_⟩
    rw [cast_toNat eb.1, ZMod.intCast_mod]
    have h0 : ((Crt.product rest : Nat) : ZMod rest[i]) = 0 := by
      rw [ZMod.natCast_eq_zero_iff]; exact Crt.product_dvd (List.getElem_mem hi)
    have h1 := congrArg (fun z : Int => (z : ZMod rest[i])) hgc'
    simp only [Int.cast_mul, Int.cast_sub, Int.cast_natCast, h0, zero_mul, Int.cast_one, zero_sub] at h1
    linear_combination (bs[i] : ZMod rest[i]) * h1 - (gc : ZMod rest[i]) * b5

/-- The moduli chains `rescale` handles: distinct primes supporting the transform, none larger than twice an earlier
one (plus one). -/
structure Chain (kr kc : Nat) (moduli : List Nat) : Prop where
  four : ∀ m ∈ moduli, FourStep kr kc m
  nodup : moduli.Nodup
  sizes : moduli.Pairwise (fun a b => b ≤ 2 * a + 1)

theorem Chain.dropLast {kr kc : Nat} {ms : List Nat} (h : Chain kr kc ms) : Chain kr kc ms.dropLast :=
  ⟨fun m hm => h.four m (List.dropLast_subset ms hm), h.nodup.sublist (List.dropLast_sublist ms),
    h.sizes.sublist (List.dropLast_sublist ms)⟩

/-- The tables belong to the moduli. -/
def TablesFor (kr kc : Nat) (moduli : List Nat) (tables : List Tables) : Prop :=
  ∀ i, i < moduli.length → precomputeTables (2 ^ kr) (2 ^ kc) (moduli.getD i 0) = .ok (tables.getD i noTables)

theorem bmod_eq (x : Int) (q : Nat) : Int.bmod x q = if x % q < (q + 1) / 2 then x % q else x % q - q := rfl

/-- One iteration. -/
theorem step_spec (kr kc : Nat) (rest : List Nat) (qL : Nat) (hc : Chain kr kc (rest ++ [qL])) (tables : List Tables)
    (hT : TablesFor kr kc (rest ++ [qL]) tables) (g b : List Nat) (hgb : ∀ i (hi : i < rest.length),
      g.getD i 0 < rest[i] ∧ b.getD i 0 < rest[i] ∧ ((b.getD i 0 : Nat) : ZMod rest[i]) * (qL : ZMod rest[i]) = 1 ∧
      ((g.getD i 0 : Nat) : ZMod rest[i]) = -((b.getD i 0 : Nat) : ZMod rest[i]))
    (data : Nat → Nat → Nat) (hd : ∀ i p, i ≤ rest.length → p < 2 ^ (kr + kc) → data i p < 2 ^ 32)
    (x : Nat → Int) (hx : ∀ i, i ≤ rest.length →
      ringOf (kr + kc) ((rest ++ [qL]).getD i 0) (data i) = polyOf (kr + kc) ((rest ++ [qL]).getD i 0) x)
    (i : Nat) (hi : i < rest.length) :
    (∀ p, step (2 ^ kr) (2 ^ kc) tables (rest ++ [qL]) (g, b) data i p < rest[i]) ∧
    ringOf (kr + kc) rest[i] (step (2 ^ kr) (2 ^ kc) tables (rest ++ [qL]) (g, b) data i) =
      polyOf (kr + kc) rest[i] (fun j => divRound (x j) qL) := by
  have hlast : (rest ++ [qL]).length - 1 = rest.length := by simp
  have hL : (rest ++ [qL]).getD rest.length 0 = qL := by simp [List.getD_eq_getElem?_getD]
  have hqi : (rest ++ [qL]).getD i 0 = rest[i] := by
    rw [List.getD_eq_getElem?_getD, List.getElem?_append_left hi, List.getElem?_eq_getElem hi, Option.getD_some]
  have fL := hc.four qL (by simp)
  have fi := hc.four rest[i] (by simp)
  have TL := hT rest.length (by simp)
  have Ti := hT i (by simp; omega)
  rw [hL] at TL
  rw [hqi] at Ti
  have hsz : qL ≤ 2 * rest[i] + 1 := by
    have := List.pairwise_append.1 hc.sizes
    exact this.2.2 rest[i] (List.getElem_mem hi) qL (by simp)
  obtain ⟨hg, hb, hbq, hgbq⟩ := hgb i hi
  have hxL := hx rest.length le_rfl
  rw [hL] at hxL
  have hxi := hx i hi.le
  rw [hqi] at hxi
  obtain ⟨cf, hcf⟩ : ∃ cf, cf = inttFlat (2 ^ kr) (2 ^ kc) qL (tables.getD rest.length noTables) (data rest.length) :=
    ⟨_, rfl⟩
  obtain ⟨c1, c2⟩ := inttFlat_ringOf fL TL (data rest.length) (fun p hp => hd _ p le_rfl hp)
  rw [← hcf] at c1 c2
  rw [hxL] at c2
  have hcx : ∀ p, p < 2 ^ (kr + kc) → (cf p : Int) = x p % (qL : Int) := by
    intro p hp
    have := polyOf_inj c2 p hp
    rwa [Int.emod_eq_of_lt (by omega) (by exact_mod_cast c1 p)] at this
  generalize hq : rest[i] = q at *
  have gL := fL.good.lt
  have gi := fi.good.lt
  have gpos := fi.good.pos
  obtain ⟨sw, hsw⟩ : ∃ sw : Nat → Nat, sw = fun p =>
      if cf p < (qL + 1) / 2 then cf p else toU64 ((q : Int) - (qL : Int) + (cf p : Int)) := ⟨_, rfl⟩
  have hsw1 : ∀ p, p < 2 ^ (kr + kc) → sw p < 2 ^ 32 ∧ ((sw p : Int) : ZMod q) = ((Int.bmod (x p) qL : Int) : ZMod q) := by
    intro p hp
    have hc1 := c1 p
    rw [hsw, bmod_eq, ← hcx p hp]
    simp only
    split
    · rename_i h
      rw [if_pos (by omega)]
      exact ⟨by omega, rfl⟩
    · rename_i h
      rw [if_neg (by omega)]
      have e : toU64 ((q : Int) - (qL : Int) + (cf p : Int)) = q + cf p - qL := by
        unfold toU64
        omega
      rw [e]
      refine ⟨by omega, ?_⟩
      have : ((q + cf p - qL : Nat) : Int) = (q : Int) + ((cf p : Int) - qL) := by omega
      rw [this, Int.cast_add, Int.cast_natCast, ZMod.natCast_self, zero_add]
  obtain ⟨tw, htw⟩ : ∃ tw : Nat → Nat, tw = fun p => mul64 (sw p) (g.getD i 0) % q := ⟨_, rfl⟩
  have htw1 : ∀ p, p < 2 ^ (kr + kc) → tw p < 2 ^ 32 ∧
      ((tw p : Int) : ZMod q) = ((Int.bmod (x p) qL * (g.getD i 0 : Nat) : Int) : ZMod q) := by
    intro p hp
    obtain ⟨s1, s2⟩ := hsw1 p hp
    have hlt : sw p * g.getD i 0 < 2 ^ 64 := by
      calc sw p * g.getD i 0 < 2 ^ 32 * 2 ^ 32 := Nat.mul_lt_mul_of_lt_of_lt s1 (by omega)
        _ = 2 ^ 64 := by norm_num
    rw [htw]
    simp only
    unfold mul64
    rw [Nat.mod_eq_of_lt hlt]
    refine ⟨lt_trans (Nat.mod_lt _ (by omega)) (by omega), ?_⟩
    rw [Int.cast_natCast, ZMod.natCast_mod, Int.cast_mul, ← s2]
    push_cast
    rfl
  obtain ⟨n1, n2⟩ := nttFlat_ringOf fi Ti tw (fun p hp => (htw1 p hp).1)
  have hnp := FourStep.nttPrime fi
  have hstep : ∀ p, step (2 ^ kr) (2 ^ kc) tables (rest ++ [qL]) (g, b) data i p =
      add64 (mul64 (data i p) (b.getD i 0)) (nttFlat (2 ^ kr) (2 ^ kc) q (tables.getD i noTables) tw p) % q := by
    intro p
    unfold step
    simp only [hlast, hL, hqi]
    rw [← hcf, htw, hsw]
  have hval : ∀ p, p < 2 ^ (kr + kc) → step (2 ^ kr) (2 ^ kc) tables (rest ++ [qL]) (g, b) data i p =
      (data i p * b.getD i 0 + nttFlat (2 ^ kr) (2 ^ kc) q (tables.getD i noTables) tw p) % q := by
    intro p hp
    rw [hstep]
    have h1 : data i p * b.getD i 0 ≤ 2 ^ 32 * 2 ^ 31 :=
      Nat.mul_le_mul (hd i p hi.le hp).le (by omega)
    have h2 := n1 p hp
    unfold mul64 add64
    rw [Nat.mod_eq_of_lt (a := data i p * b.getD i 0) (lt_of_le_of_lt h1 (by norm_num)),
      Nat.mod_eq_of_lt (a := data i p * b.getD i 0 + _)]
    calc data i p * b.getD i 0 + nttFlat (2 ^ kr) (2 ^ kc) q (tables.getD i noTables) tw p
        < 2 ^ 32 * 2 ^ 31 + 2 ^ 31 := Nat.add_lt_add_of_le_of_lt h1 (by omega)
      _ ≤ 2 ^ 64 := by norm_num
  refine ⟨fun p => by rw [hstep]; exact Nat.mod_lt _ (by omega), ?_⟩
  rw [ringOf_congr hnp (g := fun p => data i p * b.getD i 0 +
    nttFlat (2 ^ kr) (2 ^ kc) q (tables.getD i noTables) tw p) (fun p hp => by rw [hval p hp, ZMod.natCast_mod])]
  rw [ringOf_add hnp (fun p => data i p * b.getD i 0), ringOf_mul hnp (data i) (fun _ => b.getD i 0), ringOf_const hnp, n2,
    hxi, polyOf_congr (x := fun p => (tw p : Int)) (y := fun p => ((g.getD i 0 : Nat) : Int) * Int.bmod (x p) qL) (fun p hp => by
      rw [(htw1 p hp).2]; push_cast; ring), polyOf_smul]
  have cst : ∀ n : Nat, (n : Rq (kr + kc) q) = Nega.cst (2 ^ (kr + kc)) ((n : ZMod q)) := by
    intro n; unfold Nega.cst; rw [map_natCast]
  have hxy : polyOf (kr + kc) q x = ((qL : Nat) : Rq (kr + kc) q) * polyOf (kr + kc) q (fun j => divRound (x j) qL) +
      polyOf (kr + kc) q (fun j => Int.bmod (x j) qL) := by
    have e := polyOf_smul (k := kr + kc) (q := q) ((qL : Nat) : Int) (fun j => divRound (x j) qL)
    rw [Int.cast_natCast] at e
    rw [← e, ← polyOf_add]
    congr 1
    funext j
    rw [mul_divRound]; ring
  have h1 : ((b.getD i 0 : Nat) : Rq (kr + kc) q) * ((qL : Nat) : Rq (kr + kc) q) = 1 := by
    rw [cst, cst, ← Nega.cst_mul, hbq, Nega.cst_one]
  have h2 : ((g.getD i 0 : Nat) : Rq (kr + kc) q) = -((b.getD i 0 : Nat) : Rq (kr + kc) q) := by
    rw [cst, cst, hgbq, Nega.cst_neg]
  rw [hxy, Int.cast_natCast, h2]
  linear_combination (polyOf (kr + kc) q (fun j => divRound (x j) qL)) * h1

/-- The whole loop. -/
theorem loop_spec (kr kc : Nat) (tables : List Tables) (n : Nat) : ∀ (moduli : List Nat), n < moduli.length →
    Chain kr kc moduli → TablesFor kr kc moduli tables →
    ∃ consts, constsLoop n moduli = .ok consts ∧
      ∀ (data : Nat → Nat → Nat) (x : Nat → Int),
        (∀ i p, i < moduli.length → p < 2 ^ (kr + kc) → data i p < 2 ^ 32) →
        (∀ i, i < moduli.length →
          ringOf (kr + kc) (moduli.getD i 0) (data i) = polyOf (kr + kc) (moduli.getD i 0) x) →
        (loop (2 ^ kr) (2 ^ kc) tables consts moduli data).1 = moduli.take (moduli.length - n) ∧
        ∀ i, i < moduli.length - n →
          (∀ p, p < 2 ^ (kr + kc) → (loop (2 ^ kr) (2 ^ kc) tables consts moduli data).2 i p < 2 ^ 32 ∧
            (1 ≤ n → (loop (2 ^ kr) (2 ^ kc) tables consts moduli data).2 i p < moduli.getD i 0)) ∧
          ringOf (kr + kc) (moduli.getD i 0) ((loop (2 ^ kr) (2 ^ kc) tables consts moduli data).2 i) =
            polyOf (kr + kc) (moduli.getD i 0) (fun j => divRounds n moduli (x j)) := by
  induction n with
  | zero =>
    intro moduli _ _ _
    refine ⟨[], rfl, ?_⟩
    intro data x hd hx
    refine ⟨by simp [loop], ?_⟩
    intro i hi
    exact ⟨fun p hp => ⟨hd i p hi hp, by omega⟩, hx i hi⟩
  | succ n ih =>
    intro moduli hn hc hT
    have hne : moduli ≠ [] := by rintro rfl; simp at hn
    obtain ⟨rest, qL, rfl⟩ : ∃ rest qL, moduli = rest ++ [qL] :=
      ⟨moduli.dropLast, moduli.getLast hne, (List.dropLast_append_getLast hne).symm⟩
    have hlen : (rest ++ [qL]).length = rest.length + 1 := by simp
    rw [hlen] at hn
    have hrest : rest ≠ [] := by rintro rfl; simp at hn
    have hdrop : (rest ++ [qL]).dropLast = rest := by simp
    have hgetD : ∀ i, i < rest.length → (rest ++ [qL]).getD i 0 = rest.getD i 0 := by
      intro i hi
      rw [List.getD_eq_getElem?_getD, List.getElem?_append_left hi, List.getD_eq_getElem?_getD]
    have hgi : ∀ i (hi : i < rest.length), rest.getD i 0 = rest[i] := by
      intro i hi; simp [List.getD_eq_getElem?_getD, hi]
    have hlast : (rest ++ [qL]).getD ((rest ++ [qL]).length - 1) 0 = qL := by simp [List.getD_eq_getElem?_getD]
    obtain ⟨g, b, h1, h2⟩ := gammaBeta_ok rest qL hrest (fun m hm => (hc.four m hm).prime) hc.nodup
    have hc' := hc.dropLast
    rw [hdrop] at hc'
    have hT' : TablesFor kr kc rest tables := by
      intro i hi
      rw [← hgetD i hi]
      exact hT i (by omega)
    obtain ⟨consts, h3, h4⟩ := ih rest (by omega) hc' hT'
    refine ⟨(g, b) :: consts, ?_, ?_⟩
    · simp only [constsLoop, h1, hdrop, h3, bind, Except.bind, pure, Except.pure]
    · intro data x hd hx
      have hs := step_spec kr kc rest qL hc tables hT g b h2 data (fun i p hi hp => hd i p (by omega) hp) x
        (fun i hi => hx i (by omega))
      have h5 := h4 (step (2 ^ kr) (2 ^ kc) tables (rest ++ [qL]) (g, b) data) (fun j => divRound (x j) qL)
        (fun i p hi hp => by
          have := (hs i hi).1 p
          have := (hc'.four rest[i] (List.getElem_mem hi)).good.lt
          omega)
        (fun i hi => by rw [hgi i hi]; exact (hs i hi).2)
      simp only [loop, hdrop]
      refine ⟨?_, ?_⟩
      · rw [h5.1, hlen, List.take_append_of_le_length (by omega)]
        congr 1
        omega
      · intro i hi
        have hi' : i < rest.length := by omega
        rw [hgetD i hi']
        obtain ⟨h6, h7⟩ := h5.2 i (by omega)
        refine ⟨?_, ?_⟩
        · intro p hp
          refine ⟨(h6 p hp).1, ?_⟩
          intro _
          rcases Nat.eq_zero_or_pos n with h0 | h0
          · subst h0
            simp only [constsLoop, Except.ok.injEq] at h3
            subst h3
            simp only [loop]
            rw [hgi i hi']
            exact (hs i hi').1 p
          · exact (h6 p hp).2 h0
        · rw [h7]
          simp only [divRounds, hdrop, hlast]

/-- Any residues are those of an integer. -/
theorem crt_exists (moduli : List Nat) (hco : moduli.Pairwise Nat.Coprime) (hpos : ∀ m ∈ moduli, 0 < m)
    (v : Nat → Int) : ∃ y : Int, ∀ i (hi : i < moduli.length), y % (moduli[i] : Int) = v i % (moduli[i] : Int) := by
  by_cases hne : moduli = []
  · subst hne
    exact ⟨0, by simp⟩
  · obtain ⟨r, -, h2, h3⟩ := C35_reconstruct ((List.range moduli.length).map (fun i => [v i])) moduli hne
      (fun i hi => ⟨[v i], by rw [List.getElem?_map, List.getElem?_range hi]; rfl, by
        rw [List.getD_eq_getElem _ _ (by simp; omega), List.getElem_map]; simp⟩) hco hpos
    have hl := List.length_pos_iff.2 hne
    have e : ∀ i, i < moduli.length → ((List.range moduli.length).map (fun i => [v i])).getD i [] = [v i] := by
      intro i hi
      simp [List.getD_eq_getElem?_getD, hi]
    rw [e 0 hl] at h2
    obtain ⟨-, -, h4⟩ := h3 0 (by simp [h2])
    refine ⟨r.getD 0 0, ?_⟩
    intro i hi
    rw [h4 i hi, e i hi]
    rfl

theorem tables_for {kr kc : Nat} {moduli : List Nat} (h : ∀ m ∈ moduli, FourStep kr kc m) :
    ∃ tables, moduli.mapM (fun (q : Nat) => precomputeTables (2 ^ kr) (2 ^ kc) q) = .ok tables ∧
      TablesFor kr kc moduli tables := by
  obtain ⟨tables, h1, h2, h3⟩ := Crt.mapM_ok (fun (q : Nat) => precomputeTables (2 ^ kr) (2 ^ kc) q) moduli
    (fun m hm => by obtain ⟨_, T, _, _, hT, _⟩ := tables_ok kr kc m (h m hm); exact ⟨T, hT⟩)
  refine ⟨tables, h1, ?_⟩
  intro i hi
  have := h3 i hi (by omega)
  rw [List.getD_eq_getElem _ _ hi, List.getD_eq_getElem _ _ (by omega)]
  exact this

/-- C38 (with the size restriction in `Chain`, without which it fails, see `C38_rescale_wraps`): the constants exist
for every positive number `n` of rescales that leaves a modulus, every residue vector represents an integer polynomial `x`, and
`rescale` returns the first moduli and reduced residues of `x` divided by the dropped moduli, last one first, each time
rounded to nearest. -/
theorem C38_rescale_partial (kr kc n : Nat) (moduli : List Nat) (h0 : 0 < n) (hn : n < moduli.length) (hc : Chain kr kc moduli) :
    ∃ K, Rescale.precompute moduli n (2 ^ kr) (2 ^ kc) = .ok K ∧
      ∀ data : Nat → Nat → Nat, (∀ i p, i < moduli.length → p < 2 ^ (kr + kc) → data i p < 2 ^ 32) →
        (∃ x : Nat → Int, ∀ i, i < moduli.length →
          ringOf (kr + kc) (moduli.getD i 0) (data i) = polyOf (kr + kc) (moduli.getD i 0) x) ∧
        ∃ out, rescale (some K) (2 ^ (kr + kc)) moduli.length data = .ok (moduli.take (moduli.length - n), out) ∧
          ∀ i, i < moduli.length - n →
            (∀ p, p < 2 ^ (kr + kc) → out i p < moduli.getD i 0) ∧
            ∀ x : Nat → Int, (∀ i, i < moduli.length →
              ringOf (kr + kc) (moduli.getD i 0) (data i) = polyOf (kr + kc) (moduli.getD i 0) x) →
              ringOf (kr + kc) (moduli.getD i 0) (out i) =
                polyOf (kr + kc) (moduli.getD i 0) (fun j => divRounds n moduli (x j)) := by
  obtain ⟨tables, h1, h2⟩ := tables_for hc.four
  obtain ⟨consts, h3, h4⟩ := loop_spec kr kc tables n moduli hn hc h2
  refine ⟨⟨moduli, 2 ^ kr, 2 ^ kc, tables, consts⟩, ?_, ?_⟩
  · unfold Rescale.precompute
    simp only [h1, h3, bind, Except.bind, pure, Except.pure, if_neg h0.ne']
  · intro data hd
    have hprime : ∀ m ∈ moduli, m.Prime := fun m hm => (hc.four m hm).prime
    have hco : moduli.Pairwise Nat.Coprime := by
      apply hc.nodup.imp_of_mem
      intro a b ha hb hab
      exact (Nat.coprime_primes (hprime a ha) (hprime b hb)).2 hab
    have hex : ∃ x : Nat → Int, ∀ i, i < moduli.length →
        ringOf (kr + kc) (moduli.getD i 0) (data i) = polyOf (kr + kc) (moduli.getD i 0) x := by
      have h5 : ∀ i (hi : i < moduli.length), ∃ y : Nat → Int, polyOf (kr + kc) moduli[i] y = ringOf (kr + kc) moduli[i] (data i) := by
        intro i hi
        obtain ⟨y, hy, -⟩ := exists_poly (FourStep.nttPrime (hc.four moduli[i] (List.getElem_mem hi)))
          (ringOf (kr + kc) moduli[i] (data i))
        exact ⟨y, hy⟩
      choose y hy using h5
      have h6 := fun j => crt_exists moduli hco (fun m hm => (hprime m hm).pos)
        (fun i => if hi : i < moduli.length then y i hi j else 0)
      choose x hx using h6
      refine ⟨x, ?_⟩
      intro i hi
      rw [List.getD_eq_getElem _ _ hi, ← hy i hi]
      apply polyOf_congr
      intro j _
      have := hx j i hi
      rw [dif_pos hi] at this
      exact ((ZMod.intCast_eq_intCast_iff' _ _ _).2 this).symm
    refine ⟨hex, (loop (2 ^ kr) (2 ^ kc) tables consts moduli data).2, ?_, ?_⟩
    · obtain ⟨x, hx⟩ := hex
      unfold rescale
      simp only
      rw [if_neg (by rw [pow_add]; simp), if_neg (by simp), ← (h4 data x hd hx).1]
    · intro i hi
      obtain ⟨x0, hx0⟩ := hex
      refine ⟨fun p hp => (((h4 data x0 hd hx0).2 i hi).1 p hp).2 h0, ?_⟩
      intro x hx
      exact ((h4 data x hd hx).2 i hi).2

theorem fourStep_1033 : FourStep 0 1 1033 :=
  ⟨PrimeCheck.prime_of_noDiv _ 5 (by norm_num) (by decide +kernel) (by norm_num), by decide,
    ⟨by norm_num, by norm_num, by decide +kernel⟩, by decide +kernel, by decide +kernel, by norm_num, by norm_num⟩

theorem fourStep_2069 : FourStep 0 1 2069 :=
  ⟨PrimeCheck.prime_of_noDiv _ 6 (by norm_num) (by decide +kernel) (by norm_num), by decide,
    ⟨by norm_num, by norm_num, by decide +kernel⟩, by decide +kernel, by decide +kernel, by norm_num, by norm_num⟩

theorem fourStep_1069 : FourStep 0 1 1069 :=
  ⟨PrimeCheck.prime_of_noDiv _ 5 (by norm_num) (by decide +kernel) (by norm_num), by decide,
    ⟨by norm_num, by norm_num, by decide +kernel⟩, by decide +kernel, by decide +kernel, by norm_num, by norm_num⟩

/-- The hypotheses of `C38_rescale_partial` are met. -/
example : Chain 0 1 [1033, 1069] :=
  ⟨by intro m hm; simp at hm; rcases hm with rfl | rfl; exacts [fourStep_1033, fourStep_1069], by decide,
    by simp⟩

/-- C38, violation: with moduli `[1033, 2069]`, both valid four-step primes for degree 2, the constant polynomial 1035
is rescaled to a constant other than `divRound 1035 2069 = 1`: `q_i - q_L + coefficient` is negative and
`astype(uint64)` wraps it. -/
theorem C38_rescale_wraps :
    FourStep 0 1 1033 ∧ FourStep 0 1 2069 ∧
    ∃ K out, Rescale.precompute [1033, 2069] 1 1 2 = .ok K ∧
      rescale (some K) 2 2 (fun i _ => 1035 % [1033, 2069].getD i 0) = .ok ([1033], out) ∧
      ringOf 1 1033 (fun _ => 1035 % 1033) = 1035 ∧ ringOf 1 2069 (fun _ => 1035 % 2069) = 1035 ∧
      divRound 1035 2069 = 1 ∧ ringOf 1 1033 (out 0) ≠ 1 := by
  have hp := FourStep.nttPrime fourStep_1033
  have hp2 := FourStep.nttPrime fourStep_2069
  refine ⟨fourStep_1033, fourStep_2069, ?_⟩
  have hrun : ∃ K out, Rescale.precompute [1033, 2069] 1 1 2 = .ok K ∧
      rescale (some K) 2 2 (fun i _ => 1035 % [1033, 2069].getD i 0) = .ok ([1033], out) ∧ out 0 0 ≠ 1 ∧
      out 0 0 < 1033 := by
    have h : (match Rescale.precompute [1033, 2069] 1 1 2 with
      | .ok K => match rescale (some K) 2 2 (fun i _ => 1035 % [1033, 2069].getD i 0) with
        | .ok (ms, out) => decide (ms = [1033] ∧ out 0 0 ≠ 1 ∧ out 0 0 < 1033)
        | _ => false
      | _ => false) = true := by decide +kernel
    revert h
    cases h1 : Rescale.precompute [1033, 2069] 1 1 2 with
    | error e => simp
    | ok K =>
      simp only
      cases h2 : rescale (some K) 2 2 (fun i _ => 1035 % [1033, 2069].getD i 0) with
      | error e => simp
      | ok r =>
        obtain ⟨ms, out⟩ := r
        intro h
        simp only [decide_eq_true_eq] at h
        exact ⟨K, out, rfl, by rw [h2, h.1], h.2.1, h.2.2⟩
  obtain ⟨K, out, h1, h2, h3, h4⟩ := hrun
  refine ⟨K, out, h1, h2, ?_, ?_, by decide, ?_⟩
  · rw [ringOf_mod hp (fun _ => 1035)]
    exact ringOf_const hp 1035
  · rw [ringOf_mod hp2 (fun _ => 1035)]
    exact ringOf_const hp2 1035
  · intro h
    have e := congrArg (slot hp 0) h
    rw [slot_ringOf hp _ 0 (by norm_num), map_one] at e
    have e2 : ((out 0 0 : Nat) : ZMod 1033) = ((1 : Nat) : ZMod 1033) := by rw [e]; simp
    rw [ZMod.natCast_eq_natCast_iff'] at e2
    rw [Nat.mod_eq_of_lt h4] at e2
    exact h3 e2

/-- C38: `rescale` raises before `precompute_constants` and on a wrong degree; `precompute_constants` raises when no
modulus would remain, and for no rescales. (Limb counts differing from the kernel's: see C86.) -/
theorem C38_rejects (K : Kernel) (degree m : Nat) (data : Nat → Nat → Nat) (moduli : List Nat) (n r c : Nat) :
    rescale none degree m data = .error "ValueError" ∧
    (degree ≠ K.r * K.c → rescale (some K) degree m data = .error "AssertionError") ∧
    (moduli.length ≤ n → ∃ e, Rescale.precompute moduli n r c = .error e) ∧
    ∃ e, Rescale.precompute moduli 0 r c = .error e := by
  have hz : ∃ e, Rescale.precompute moduli 0 r c = .error e := by
    unfold Rescale.precompute
    simp only [bind, Except.bind]
    cases moduli.mapM (fun (q : Nat) => precomputeTables r c q) with
    | error e => exact ⟨e, rfl⟩
    | ok t => exact ⟨_, rfl⟩
  refine ⟨rfl, ?_, ?_, hz⟩
  · intro h
    unfold rescale
    simp only
    rw [if_pos h]
  · intro h1
    rcases Nat.eq_zero_or_pos n with rfl | h2
    · exact hz
    have h3 : ∀ n (ms : List Nat), ms.length ≤ n → 0 < n → ∃ e, constsLoop n ms = .error e := by
      intro n
      induction n with
      | zero => intro ms _ h; omega
      | succ n ih =>
        intro ms hms _
        simp only [constsLoop, bind, Except.bind]
        rcases Nat.lt_or_ge 1 ms.length with hl | hl
        · cases hg : gammaBeta ms with
          | error e => exact ⟨e, rfl⟩
          | ok gb =>
            obtain ⟨e, he⟩ := ih ms.dropLast (by simp; omega) (by omega)
            simp only [he]
            exact ⟨e, rfl⟩
        · have : gammaBeta ms = .error "AssertionError" := by unfold gammaBeta; rw [if_pos hl]
          simp only [this]
          exact ⟨_, rfl⟩
    unfold Rescale.precompute
    simp only [bind, Except.bind]
    cases moduli.mapM (fun (q : Nat) => precomputeTables r c q) with
    | error e => exact ⟨e, rfl⟩
    | ok t =>
      obtain ⟨e, he⟩ := h3 n moduli h1 h2
      simp only [he]
      exact ⟨e, rfl⟩

end Verif.Props
