import Verif.Model.RescaleArr
import Verif.Props.Rescale

/-!
# Lemmas for C86: the iteration of `rescale` on arrays
-/

namespace Verif.RescaleArr
open Verif.CkksMath Verif.Barrett Verif.NttBat Verif.Rescale Verif.Bat Finset

theorem bdim_self (a : Nat) : bdim a a = .ok a := by unfold bdim; rw [if_pos rfl]

theorem bdim_one_left (a : Nat) : bdim 1 a = .ok a := by
  unfold bdim
  by_cases h : 1 = a
  · rw [if_pos h, h]
  · rw [if_neg h, if_pos rfl]

theorem bdim_one_right (a : Nat) : bdim a 1 = .ok a := by
  unfold bdim
  by_cases h : a = 1
  · rw [if_pos h]
  · rw [if_neg h, if_neg h, if_pos rfl]

theorem map2_eq {α β γ : Type} (f : α → β → γ) (A : Arr α) (B : Arr β) {e n l : Nat} (he : bdim A.e B.e = .ok e)
    (hn : bdim A.n B.n = .ok n) (hl : bdim A.l B.l = .ok l) :
    map2 f A B = .ok ⟨e, n, l, fun a p i =>
      f (A.get (pick A.e a) (pick A.n p) (pick A.l i)) (B.get (pick B.e a) (pick B.n p) (pick B.l i))⟩ := by
  unfold map2
  rw [he, hn, hl]
  rfl

theorem map2_error {α β γ : Type} (f : α → β → γ) (A : Arr α) (B : Arr β) {e n : Nat} {x : String} (he : bdim A.e B.e = .ok e)
    (hn : bdim A.n B.n = .ok n) (hl : bdim A.l B.l = .error x) : map2 f A B = .error x := by
  unfold map2
  rw [he, hn, hl]
  rfl

theorem pick_eq {d i : Nat} (h : i < d) : pick d i = i := by
  unfold pick
  split
  · omega
  · rfl

theorem pick_one (i : Nat) : pick 1 i = 0 := by simp [pick]

theorem matmulBat_ext {K : Nat} {x y : Nat → Nat} (h : ∀ k, k < K → x k = y k) (bat : Nat → Nat → Nat → Nat) :
    matmulBat K x bat = matmulBat K y bat := by
  have h' : ∀ p, ∑ k ∈ range K, ∑ q ∈ range 4, byte (x k) q * bat k q p =
      ∑ k ∈ range K, ∑ q ∈ range 4, byte (y k) q * bat k q p := by
    intro p
    refine sum_congr rfl fun k hk => ?_
    rw [h k (mem_range.1 hk)]
  unfold matmulBat
  simp only [h']

/-- The transforms read the first `r c` entries only. -/
theorem nttFlat_ext {r c : Nat} (q : Nat) (T : Tables) {f g : Nat → Nat} (h : ∀ t, t < r * c → f t = g t) (p : Nat)
    (hp : p < r * c) : nttFlat r c q T f p = nttFlat r c q T g p := by
  have hc : 0 < c := by
    rcases Nat.eq_zero_or_pos c with rfl | h
    · simp at hp
    · exact h
  unfold nttFlat ntt
  simp only
  rw [matmulBat_ext]
  intro j hj
  rw [matmulBat_ext]
  intro i hi
  apply h
  calc i * c + j < i * c + c := by omega
    _ = (i + 1) * c := by ring
    _ ≤ r * c := Nat.mul_le_mul_right c hi

theorem inttFlat_ext {r c : Nat} (q : Nat) (T : Tables) {f g : Nat → Nat} (h : ∀ t, t < r * c → f t = g t) (p : Nat)
    (hp : p < r * c) : inttFlat r c q T f p = inttFlat r c q T g p := by
  have hc : 0 < c := by
    rcases Nat.eq_zero_or_pos c with rfl | h
    · simp at hp
    · exact h
  unfold inttFlat intt
  simp only
  rw [matmulBat_ext]
  intro z hz
  rw [matmulBat_ext]
  intro j hj
  apply h
  calc z * c + j < z * c + c := by omega
    _ = (z + 1) * c := by ring
    _ ≤ r * c := Nat.mul_le_mul_right c hz

/-- What `levelsLoop` stores for one iteration on the moduli `rest ++ [qL]`. -/
structure LevelFor (tables : List Tables) (rest : List Nat) (qL : Nat) (gb : List Nat × List Nat) (L : Level) : Prop where
  gammas : ∀ i, i < rest.length → L.gammas.getD i 0 = gb.1.getD i 0
  betas : ∀ i, i < rest.length → L.betas.getD i 0 = gb.2.getD i 0
  gammasLen : rest.length ≤ L.gammas.length
  betasLen : rest.length ≤ L.betas.length
  threshold : L.threshold = (qL + 1) / 2
  last : L.nttLast = [(qL, tables.getD rest.length noTables)]
  remLen : L.nttRemaining.length = rest.length
  rem : ∀ i, i < rest.length → L.nttRemaining.getD i (0, noTables) = (rest.getD i 0, tables.getD i noTables)

theorem getD_take {α : Type} (xs : List α) (d : α) {k i : Nat} (h : i < k) : (xs.take k).getD i d = xs.getD i d := by
  simp only [List.getD_eq_getElem?_getD, List.getElem?_take, if_pos h]

/-- One iteration, whatever the number of limbs of the data: it raises unless the number of remaining limbs agrees with
the number of remaining moduli or one of them is one; and where the numbers agree the data is that of `step`. -/
theorem stepArr_spec (r c : Nat) (tables : List Tables) (rest : List Nat) (qL : Nat) (gb : List Nat × List Nat) (L : Level)
    (hL : LevelFor tables rest qL gb L) (hbig : ∀ m ∈ rest, m < 2 ^ 32) (hpos : ∀ m ∈ rest, 0 < m)
    (data : Arr Nat) (hn : data.n = r * c) (hl : 0 < data.l) :
    (∀ l, bdim (data.l - 1) rest.length = .ok l → ∃ out, stepArr r c L (rest ++ [qL]) data = .ok out ∧
      out.e = data.e ∧ out.n = data.n ∧ out.l = l ∧
      (data.l = rest.length + 1 → ∀ a p i, a < data.e → p < data.n → i < rest.length →
        out.get a p i = step r c tables (rest ++ [qL]) gb (fun j t => data.get a t j) i p)) ∧
    (∀ x, bdim (data.l - 1) rest.length = .error x → stepArr r c L (rest ++ [qL]) data = .error x) := by
  have hlen : (rest ++ [qL]).length - 1 = rest.length := by simp
  have hqL : (rest ++ [qL]).getD rest.length 0 = qL := by simp [List.getD_eq_getElem?_getD]
  have hdrop : (rest ++ [qL]).dropLast = rest := by simp
  have hbig' : ∀ i, i < rest.length → rest.getD i 0 < 2 ^ 32 ∧ 0 < rest.getD i 0 := by
    intro i hi
    rw [List.getD_eq_getElem _ _ hi]
    exact ⟨hbig _ (List.getElem_mem hi), hpos _ (List.getElem_mem hi)⟩
  -- the part that does not involve the remaining limbs
  obtain ⟨C, hC⟩ : ∃ C : Arr Nat, C = ⟨data.e, data.n, 1, fun a p i =>
    inttFlat r c (L.nttLast.getD i (0, noTables)).1 (L.nttLast.getD i (0, noTables)).2
      (fun t => data.get a t (data.l - 1)) p⟩ := ⟨_, rfl⟩
  have hlastL : lastLimb data = .ok ⟨data.e, data.n, 1, fun a p _ => data.get a p (data.l - 1)⟩ := by
    unfold lastLimb
    rw [if_neg hl.ne']
  have hintt : inttArr r c L.nttLast ⟨data.e, data.n, 1, fun a p _ => data.get a p (data.l - 1)⟩ = .ok C := by
    unfold inttArr
    rw [if_neg (by rw [hL.last]; simp), hC]
  obtain ⟨N, hN, hNe, hNn, hNl, hNv⟩ : ∃ N : Arr Nat, (do
      let shifted ← map2 (fun (q : Int) (x : Nat) => q - (qL : Int) + (x : Int)) (row 0 (rest.map Int.ofNat)) C
      let switched ← map2 (fun (x : Nat) (y : Int) => if x < L.threshold then (x : Int) else y) C shifted
      let twisted ← map2 (fun (s : Int) (g : Nat) => mul64 (toU64 s) g) switched (row 0 (L.gammas.take rest.length))
      let reduced ← map2 (fun (t q : Nat) => t % q % 2 ^ 32) twisted (row 0 rest)
      nttArr r c L.nttRemaining reduced) = (Except.ok N : Except String (Arr Nat)) ∧ N.e = data.e ∧ N.n = data.n ∧
      N.l = rest.length ∧ ∀ a p i, a < data.e → p < data.n → i < rest.length →
        N.get a p i = nttFlat r c (rest.getD i 0) (tables.getD i noTables) (fun t =>
          mul64 (if C.get a t 0 < (qL + 1) / 2 then C.get a t 0
            else toU64 ((rest.getD i 0 : Int) - (qL : Int) + (C.get a t 0 : Int))) (gb.1.getD i 0) % rest.getD i 0) p := by
    have hCe : C.e = data.e := by rw [hC]
    have hCn : C.n = data.n := by rw [hC]
    have hCl : C.l = 1 := by rw [hC]
    rw [map2_eq _ (row 0 (rest.map Int.ofNat)) C (e := data.e) (n := data.n) (l := rest.length)
      (by rw [hCe]; exact bdim_one_left _) (by rw [hCn]; exact bdim_one_left _)
      (by rw [hCl]; show bdim (rest.map Int.ofNat).length 1 = _; rw [List.length_map]; exact bdim_one_right _)]
    simp only [bind, Except.bind]
    rw [map2_eq _ C _ (e := data.e) (n := data.n) (l := rest.length) (by rw [hCe]; exact bdim_self _)
      (by rw [hCn]; exact bdim_self _) (by rw [hCl]; exact bdim_one_left _)]
    simp only
    have hgl : (L.gammas.take rest.length).length = rest.length := by
      rw [List.length_take]; have := hL.gammasLen; omega
    rw [map2_eq _ _ (row 0 (L.gammas.take rest.length)) (e := data.e) (n := data.n) (l := rest.length)
      (by exact bdim_one_right _) (by exact bdim_one_right _) (by show bdim _ (L.gammas.take rest.length).length = _; rw [hgl]; exact bdim_self _)]
    simp only
    rw [map2_eq _ _ (row 0 rest) (e := data.e) (n := data.n) (l := rest.length)
      (by exact bdim_one_right _) (by exact bdim_one_right _) (by exact bdim_self _)]
    simp only
    unfold nttArr
    simp only
    rw [if_neg (by rw [hL.remLen]; simp)]
    refine ⟨_, rfl, rfl, rfl, rfl, ?_⟩
    intro a p i ha hp hi
    simp only
    rw [hL.rem i hi]
    simp only
    have hi1 : i < (L.gammas.take rest.length).length := by omega
    rw [hn] at hp
    apply nttFlat_ext _ _ _ p hp
    intro t ht
    have ht' : t < data.n := by rw [hn]; exact ht
    have hi2 : i < (rest.map Int.ofNat).length := by rw [List.length_map]; exact hi
    simp only [row, pick_eq ha, pick_eq ht', pick_eq hi, pick_eq hi1, pick_one, hCe, hCn, hCl, pick_eq hi2]
    rw [hL.threshold, getD_take _ _ hi, hL.gammas i hi]
    have e1 : (rest.map Int.ofNat).getD i 0 = (rest.getD i 0 : Int) := by
      rw [List.getD_eq_getElem _ _ hi2, List.getD_eq_getElem _ _ hi, List.getElem_map]
      rfl
    rw [e1, Nat.mod_eq_of_lt (b := 2 ^ 32) (lt_trans (Nat.mod_lt _ (hbig' i hi).2) (hbig' i hi).1)]
    have hCb : C.get a t 0 < 2 ^ 32 := by
      rw [hC]
      simp only
      unfold inttFlat intt modularReduction
      simp only
      exact Nat.mod_lt _ (by norm_num)
    congr 2
    split
    · unfold toU64
      rw [Int.emod_eq_of_lt (by omega) (by have : (2:Int)^32 < 2^64 := by norm_num
                                           omega)]
      simp
    · rfl
  -- the last four operations
  have hbl : (L.betas.take rest.length).length = rest.length := by
    rw [List.length_take]; have := hL.betasLen; omega
  have key : stepArr r c L (rest ++ [qL]) data = (do
      let scaled ← map2 mul64 (initLimbs data) (row 0 (L.betas.take rest.length))
      let res ← map2 add64 scaled N
      map2 (fun (t q : Nat) => t % q % 2 ^ 32) res (row 0 rest)) := by
    unfold stepArr
    simp only [hlen, hqL, hdrop, hlastL, bind, Except.bind, hintt]
    simp only [bind, Except.bind] at hN
    generalize map2 (fun (q : Int) (x : Nat) => q - (qL : Int) + (x : Int)) (row 0 (rest.map Int.ofNat)) C = s1 at hN ⊢
    cases s1 with
    | error => simp at hN
    | ok s1 =>
      simp only at hN ⊢
      generalize map2 (fun (x : Nat) (y : Int) => if x < L.threshold then (x : Int) else y) C s1 = s2 at hN ⊢
      cases s2 with
      | error => simp at hN
      | ok s2 =>
        simp only at hN ⊢
        generalize map2 (fun (s : Int) (g : Nat) => mul64 (toU64 s) g) s2 (row 0 (L.gammas.take rest.length)) = s3 at hN ⊢
        cases s3 with
        | error => simp at hN
        | ok s3 =>
          simp only at hN ⊢
          generalize map2 (fun (t q : Nat) => t % q % 2 ^ 32) s3 (row 0 rest) = s4 at hN ⊢
          cases s4 with
          | error => simp at hN
          | ok s4 =>
            simp only at hN ⊢
            rw [hN]
  rw [key]
  constructor
  · intro l hbd
    have hl2 : bdim l rest.length = .ok l := by
      unfold bdim at hbd ⊢
      split at hbd
      · have := Except.ok.inj hbd
        rw [if_pos (by omega)]
      · split at hbd
        · have := Except.ok.inj hbd
          rw [if_pos (by omega)]
        · split at hbd
          · rename_i h
            have := Except.ok.inj hbd
            rw [h]
            exact bdim_one_right l
          · exact absurd hbd (by simp)
    rw [map2_eq _ (initLimbs data) (row 0 (L.betas.take rest.length)) (e := data.e) (n := data.n) (l := l)
      (by exact bdim_one_right _) (by exact bdim_one_right _)
      (by show bdim (data.l - 1) (L.betas.take rest.length).length = _; rw [hbl]; exact hbd)]
    simp only [bind, Except.bind]
    rw [map2_eq _ _ N (e := data.e) (n := data.n) (l := l) (by rw [hNe]; exact bdim_self _) (by rw [hNn]; exact bdim_self _)
      (by rw [hNl]; exact hl2)]
    simp only
    rw [map2_eq _ _ (row 0 rest) (e := data.e) (n := data.n) (l := l) (by exact bdim_one_right _) (by exact bdim_one_right _) (by exact hl2)]
    refine ⟨_, rfl, rfl, rfl, rfl, ?_⟩
    intro hdl a p i ha hp hi
    have hl' : l = rest.length := by
      have : data.l - 1 = rest.length := by omega
      rw [this, bdim_self] at hbd
      exact (Except.ok.inj hbd).symm
    subst hl'
    have hi1 : i < (L.betas.take rest.length).length := by omega
    have hi2 : i < data.l - 1 := by omega
    simp only [row, initLimbs, pick_eq ha, pick_eq hp, pick_eq hi, pick_eq hi1, pick_eq hi2, hNe, hNn, hNl]
    rw [getD_take _ _ hi, hL.betas i hi, hNv a p i ha hp hi]
    have hqi : (rest ++ [qL]).getD i 0 = rest.getD i 0 := by
      rw [List.getD_eq_getElem?_getD, List.getElem?_append_left hi, List.getD_eq_getElem?_getD]
    rw [Nat.mod_eq_of_lt (b := 2 ^ 32) (lt_trans (Nat.mod_lt _ (hbig' i hi).2) (hbig' i hi).1)]
    have hcoe : ∀ t, C.get a t 0 =
        inttFlat r c qL (tables.getD rest.length noTables) (fun t => data.get a t rest.length) t := by
      intro t
      rw [hC, hL.last]
      simp only [List.getD_cons_zero, show data.l - 1 = rest.length by omega]
    unfold step
    simp only [hlen, hqL, hqi, hcoe]
  · intro x hbd
    rw [map2_error _ (initLimbs data) (row 0 (L.betas.take rest.length)) (e := data.e) (n := data.n) (x := x)
      (by exact bdim_one_right _) (by exact bdim_one_right _)
      (by show bdim (data.l - 1) (L.betas.take rest.length).length = _; rw [hbl]; exact hbd)]
    rfl

/-- One iteration reads the first `r c` positions of the limbs of the moduli only. -/
theorem step_ext {r c : Nat} (tables : List Tables) (rest : List Nat) (qL : Nat) (gb : List Nat × List Nat)
    {f g : Nat → Nat → Nat} (h : ∀ i t, i < rest.length + 1 → t < r * c → f i t = g i t) (i p : Nat)
    (hi : i < rest.length) (hp : p < r * c) :
    step r c tables (rest ++ [qL]) gb f i p = step r c tables (rest ++ [qL]) gb g i p := by
  have hlen : (rest ++ [qL]).length - 1 = rest.length := by simp
  unfold step
  simp only [hlen]
  rw [h i p (by omega) hp]
  have hc : ∀ t, t < r * c → inttFlat r c ((rest ++ [qL]).getD rest.length 0) (tables.getD rest.length noTables) (f rest.length) t =
      inttFlat r c ((rest ++ [qL]).getD rest.length 0) (tables.getD rest.length noTables) (g rest.length) t :=
    fun t ht => inttFlat_ext _ _ (fun u hu => h rest.length u (by omega) hu) t ht
  rw [nttFlat_ext _ _ _ p hp]
  intro t ht
  rw [hc t ht]

theorem loop_ext {r c : Nat} (tables : List Tables) : ∀ (consts : List (List Nat × List Nat)) (moduli : List Nat),
    consts.length < moduli.length → ∀ {f g : Nat → Nat → Nat},
    (∀ i t, i < moduli.length → t < r * c → f i t = g i t) → ∀ i p, i < moduli.length - consts.length → p < r * c →
    (loop r c tables consts moduli f).2 i p = (loop r c tables consts moduli g).2 i p := by
  intro consts
  induction consts with
  | nil =>
    intro moduli _ f g h i p hi hp
    exact h i p (by simpa using hi) hp
  | cons gb consts ih =>
    intro moduli hlen f g h i p hi hp
    have hne : moduli ≠ [] := by rintro rfl; simp at hlen
    obtain ⟨rest, qL, rfl⟩ : ∃ rest qL, moduli = rest ++ [qL] :=
      ⟨moduli.dropLast, moduli.getLast hne, (List.dropLast_append_getLast hne).symm⟩
    have hdrop : (rest ++ [qL]).dropLast = rest := by simp
    simp only [List.length_cons, List.length_append, List.length_nil] at hlen hi
    simp only [loop, hdrop]
    apply ih rest (by omega) _ i p (by omega) hp
    intro j t hj ht
    exact step_ext tables rest qL gb (fun i t hi ht => h i t (by simpa using hi) ht) j t hj ht

/-- The stored levels are those of the constants. -/
def LevelsFor (tables : List Tables) : List Level → List (List Nat × List Nat) → List Nat → Prop
  | [], [], _ => True
  | L :: Ls, gb :: gbs, current =>
    ∃ rest qL, current = rest ++ [qL] ∧ rest ≠ [] ∧ LevelFor tables rest qL gb L ∧ LevelsFor tables Ls gbs rest
  | _, _, _ => False

theorem LevelsFor.length {tables : List Tables} : ∀ {Ls : List Level} {gbs : List (List Nat × List Nat)} {current : List Nat},
    LevelsFor tables Ls gbs current → Ls.length = gbs.length ∧ (Ls ≠ [] → Ls.length < current.length) := by
  intro Ls
  induction Ls with
  | nil =>
    intro gbs current h
    cases gbs with
    | nil => exact ⟨rfl, by simp⟩
    | cons => simp [LevelsFor] at h
  | cons L Ls ih =>
    intro gbs current h
    cases gbs with
    | nil => simp [LevelsFor] at h
    | cons gb gbs =>
      obtain ⟨rest, qL, rfl, hne, -, h2⟩ := h
      obtain ⟨h3, h4⟩ := ih h2
      refine ⟨by simp [h3], ?_⟩
      intro _
      have := List.length_pos_iff.2 hne
      rcases Ls with _ | ⟨L', Ls⟩
      · simp; omega
      · have := h4 (by simp)
        simp at this ⊢
        omega

theorem getD_padded (m k i : Nat) (xs : List Nat) (hi : i < k) (hk : k ≤ m) : (padded m k xs).getD i 0 = xs.getD i 0 := by
  unfold padded
  rw [List.getD_eq_getElem _ _ (by simp; omega), List.getElem_map, List.getElem_range, if_pos hi]

theorem gammaBeta_length {ms : List Nat} {gb : List Nat × List Nat} (h : gammaBeta ms = .ok gb) : 1 < ms.length := by
  unfold gammaBeta at h
  split at h
  · exact absurd h (by simp)
  · omega

/-- `levelsLoop` raises when `constsLoop` does, with the same exception, and stores the same constants. -/
theorem levelsLoop_spec (moduli : List Nat) (tables : List Tables) (ht : tables.length = moduli.length) :
    ∀ (k : Nat) (current : List Nat), current = moduli.take current.length →
      (∀ x, constsLoop k current = .error x → levelsLoop (moduli.zip tables) moduli.length k current = .error x) ∧
      (∀ consts, constsLoop k current = .ok consts → ∃ levels,
        levelsLoop (moduli.zip tables) moduli.length k current = .ok levels ∧ LevelsFor tables levels consts current ∧
        levels.length = k) := by
  intro k
  induction k with
  | zero =>
    intro current _
    refine ⟨by intro x h; simp [constsLoop] at h, ?_⟩
    intro consts h
    simp only [constsLoop, Except.ok.injEq] at h
    subst h
    exact ⟨[], rfl, trivial, rfl⟩
  | succ k ih =>
    intro current hcur
    cases hg : gammaBeta current with
    | error x =>
      refine ⟨?_, ?_⟩
      · intro y h
        simp only [constsLoop, hg, bind, Except.bind, Except.error.injEq] at h
        simp only [levelsLoop, hg, bind, Except.bind, h]
      · intro consts h
        simp [constsLoop, hg, bind, Except.bind] at h
    | ok gb =>
      have hlen := gammaBeta_length hg
      have hne : current ≠ [] := by rintro rfl; simp at hlen
      obtain ⟨rest, qL, rfl⟩ : ∃ rest qL, current = rest ++ [qL] :=
        ⟨current.dropLast, current.getLast hne, (List.dropLast_append_getLast hne).symm⟩
      have hdrop : (rest ++ [qL]).dropLast = rest := by simp
      have hl1 : (rest ++ [qL]).length = rest.length + 1 := by simp
      rw [hl1] at hlen hcur
      have hle : rest.length + 1 ≤ moduli.length := by
        have := congrArg List.length hcur
        rw [List.length_take, hl1] at this
        omega
      have hrest : rest = moduli.take rest.length := by
        have := congrArg (List.take rest.length) hcur
        rw [List.take_left' rfl, List.take_take, min_eq_left (by omega)] at this
        exact this
      have hget : ∀ i, i < rest.length → rest.getD i 0 = moduli.getD i 0 := by
        intro i hi
        conv_lhs => rw [hrest]
        exact getD_take _ _ hi
      have hqL : moduli.getD rest.length 0 = qL := by
        have := congrArg (fun l => l.getD rest.length 0) hcur
        rw [getD_take _ _ (by omega)] at this
        rw [← this]
        simp [List.getD_eq_getElem?_getD]
      have hzip : ∀ i, i < moduli.length → (moduli.zip tables).getD i (0, noTables) = (moduli.getD i 0, tables.getD i noTables) := by
        intro i hi
        rw [List.getD_eq_getElem _ _ (by simp; omega), List.getElem_zip, List.getD_eq_getElem _ _ hi,
          List.getD_eq_getElem _ _ (by omega)]
      obtain ⟨i1, i2⟩ := ih rest hrest
      obtain ⟨L, hLdef⟩ : ∃ L : Level, L = {
          gammas := padded (moduli.length - 1) (rest.length + 1 - 1) gb.1
          betas := padded (moduli.length - 1) (rest.length + 1 - 1) gb.2
          threshold := ((rest ++ [qL]).getD (rest.length + 1 - 1) 0 + 1) / 2
          nttLast := sliceModuli (moduli.zip tables) (rest.length + 1 - 1) (rest.length + 1)
          nttRemaining := sliceModuli (moduli.zip tables) 0 (rest.length + 1 - 1) } := ⟨_, rfl⟩
      have hL : LevelFor tables rest qL gb L := by
        rw [hLdef]
        refine ⟨?_, ?_, ?_, ?_, ?_, ?_, ?_, ?_⟩
        · intro i hi
          exact getD_padded _ _ _ _ (by omega) (by omega)
        · intro i hi
          exact getD_padded _ _ _ _ (by omega) (by omega)
        · simp [padded]; omega
        · simp [padded]; omega
        · simp [List.getD_eq_getElem?_getD]
        · simp only [sliceModuli, Nat.add_sub_cancel]
          apply List.ext_getElem
          · simp; omega
          · intro i h1 h2
            simp only [List.length_cons, List.length_nil] at h2
            have h0 : i = 0 := by omega
            subst h0
            simp only [List.getElem_drop, List.getElem_take, List.getElem_cons_zero, Nat.add_zero]
            have := hzip rest.length (by omega)
            rw [List.getD_eq_getElem _ _ (by simp; omega), hqL] at this
            exact this
        · simp [sliceModuli]; omega
        · intro i hi
          simp only [sliceModuli, Nat.add_sub_cancel, List.drop_zero]
          rw [getD_take _ _ hi, hzip i (by omega), hget i hi]
      have hlev : ∀ (res : Except String (List Level)), levelsLoop (moduli.zip tables) moduli.length k rest = res →
          levelsLoop (moduli.zip tables) moduli.length (k + 1) (rest ++ [qL]) = res.map (L :: ·) := by
        intro res hres
        simp only [levelsLoop, hg, bind, Except.bind, hdrop, hres, hl1]
        cases res with
        | error => rfl
        | ok ls => rw [hLdef]; rfl
      refine ⟨?_, ?_⟩
      · intro x h
        simp only [constsLoop, hg, bind, Except.bind, hdrop] at h
        cases hc : constsLoop k rest with
        | error y =>
          rw [hc] at h
          simp only [Except.error.injEq] at h
          rw [hlev _ (i1 y hc), ← h]
          rfl
        | ok cs => rw [hc] at h; simp [pure, Except.pure] at h
      · intro consts h
        simp only [constsLoop, hg, bind, Except.bind, hdrop] at h
        cases hc : constsLoop k rest with
        | error y => rw [hc] at h; simp at h
        | ok cs =>
          rw [hc] at h
          simp only [pure, Except.pure, Except.ok.injEq] at h
          obtain ⟨ls, j1, j2, j3⟩ := i2 cs hc
          refine ⟨L :: ls, hlev _ j1, ?_, by simp [j3]⟩
          rw [← h]
          exact ⟨rest, qL, rfl, by rintro rfl; simp at hlen, hL, j2⟩

/-- The array loop on data with as many limbs as moduli. -/
theorem loopArr_spec (r c : Nat) (tables : List Tables) : ∀ (levels : List Level) (consts : List (List Nat × List Nat))
    (current : List Nat), LevelsFor tables levels consts current → (∀ m ∈ current, 0 < m ∧ m < 2 ^ 32) →
    ∀ data : Arr Nat, data.n = r * c → data.l = current.length →
    ∃ out, loopArr r c levels current data = .ok (current.take (current.length - levels.length), out) ∧
      out.e = data.e ∧ out.n = data.n ∧ out.l = current.length - levels.length ∧
      ∀ a p i, a < data.e → p < data.n → i < out.l →
        out.get a p i = (loop r c tables consts current (fun j t => data.get a t j)).2 i p := by
  intro levels
  induction levels with
  | nil =>
    intro consts current h _ data hn hl
    cases consts with
    | nil => exact ⟨data, by simp [loopArr], rfl, rfl, by simpa using hl, fun a p i _ _ _ => rfl⟩
    | cons => simp [LevelsFor] at h
  | cons L levels ih =>
    intro consts current h hm data hn hl
    cases consts with
    | nil => simp [LevelsFor] at h
    | cons gb consts =>
      have hlen := h.length
      obtain ⟨rest, qL, rfl, hne, hL, h2⟩ := h
      have hdrop : (rest ++ [qL]).dropLast = rest := by simp
      simp only [List.length_append, List.length_cons, List.length_nil] at hl hlen
      obtain ⟨out, o1, o2, o3, o4, o5⟩ := (stepArr_spec r c tables rest qL gb L hL (fun m hmm => (hm m (by simp [hmm])).2)
        (fun m hmm => (hm m (by simp [hmm])).1) data hn (by omega)).1 rest.length
        (by rw [show data.l - 1 = rest.length by omega]; exact bdim_self _)
      obtain ⟨out', p1, p2, p3, p4, p5⟩ := ih consts rest h2 (fun m hmm => hm m (by simp [hmm])) out (by rw [o3, hn]) o4
      refine ⟨out', ?_, by rw [p2, o2], by rw [p3, o3], ?_, ?_⟩
      · simp only [loopArr, o1, bind, Except.bind, hdrop, p1, List.length_append, List.length_cons, List.length_nil]
        rw [List.take_append_of_le_length (by omega)]
        congr 3
        omega
      · rw [p4]; simp
      · intro a p i ha hp hi
        rw [p5 a p i (by omega) (by omega) hi]
        simp only [loop, hdrop]
        have hlv := h2.length
        apply loop_ext tables consts rest
        · rcases levels with _ | ⟨L', levels⟩
          · have := List.length_pos_iff.2 hne
            simp at hlv
            rw [← hlv]
            simpa using this
          · have := hlv.2 (by simp)
            omega
        · intro j t hj ht
          exact o5 hl a t j ha (by omega) hj
        · rw [p4] at hi
          omega
        · omega

theorem padded_take (m k j : Nat) (xs : List Nat) (h1 : j ≤ k) (h2 : k ≤ m) :
    (padded m k xs).take j = (List.range j).map (fun i => xs.getD i 0) := by
  unfold padded
  apply List.ext_getElem
  · simp; omega
  · intro i h3 h4
    simp only [List.length_map, List.length_range] at h4
    simp only [List.getElem_take, List.getElem_map, List.getElem_range]
    rw [if_pos (by omega)]

/-- Constants precomputed for the first `m'` moduli do what the constants for all of them do. -/
theorem levelsLoop_prefix (full : NttK) (m m' : Nat) (hm : m' ≤ m) : ∀ (k : Nat) (current : List Nat),
    current.length ≤ m' → ∀ ls, levelsLoop full m k current = .ok ls →
    ∃ ls', levelsLoop (full.take m') m' k current = .ok ls' ∧
      ∀ r c data, loopArr r c ls' current data = loopArr r c ls current data := by
  intro k
  induction k with
  | zero =>
    intro current _ ls h
    simp only [levelsLoop, Except.ok.injEq] at h
    subst h
    exact ⟨[], rfl, fun _ _ _ => rfl⟩
  | succ k ih =>
    intro current hcur ls h
    simp only [levelsLoop, bind, Except.bind] at h ⊢
    cases hg : gammaBeta current with
    | error x => rw [hg] at h; simp at h
    | ok gb =>
      rw [hg] at h
      simp only at h ⊢
      cases hr : levelsLoop full m k current.dropLast with
      | error x => rw [hr] at h; simp at h
      | ok rest =>
        rw [hr] at h
        simp only [pure, Except.pure, Except.ok.injEq] at h
        obtain ⟨ls', i1, i2⟩ := ih current.dropLast (by simp; omega) rest hr
        rw [i1]
        refine ⟨_, rfl, ?_⟩
        intro r c data
        rw [← h]
        simp only [loopArr]
        congr 1
        · unfold stepArr
          have e1 : sliceModuli (full.take m') (current.length - 1) current.length =
              sliceModuli full (current.length - 1) current.length := by
            unfold sliceModuli
            rw [List.take_take, min_eq_left hcur]
          have e2 : sliceModuli (full.take m') 0 (current.length - 1) = sliceModuli full 0 (current.length - 1) := by
            unfold sliceModuli
            rw [List.take_take, min_eq_left (by omega)]
          simp only [padded_take (m' - 1) (current.length - 1) (current.length - 1) _ le_rfl (by omega),
            padded_take (m - 1) (current.length - 1) (current.length - 1) _ le_rfl (by omega), e1, e2]
        · funext d
          exact i2 r c d

theorem levelsLoop_append (full : NttK) (m : Nat) : ∀ (a b : Nat) (current : List Nat) (ls : List Level),
    levelsLoop full m (a + b) current = .ok ls → ∃ l1 l2, ls = l1 ++ l2 ∧ levelsLoop full m a current = .ok l1 ∧
      levelsLoop full m b (current.take (current.length - a)) = .ok l2 := by
  intro a
  induction a with
  | zero =>
    intro b current ls h
    rw [Nat.zero_add] at h
    exact ⟨[], ls, rfl, rfl, by simpa using h⟩
  | succ a ih =>
    intro b current ls h
    rw [show a + 1 + b = a + b + 1 by omega] at h
    simp only [levelsLoop, bind, Except.bind] at h ⊢
    cases hg : gammaBeta current with
    | error x => rw [hg] at h; simp at h
    | ok gb =>
      rw [hg] at h
      simp only at h ⊢
      cases hr : levelsLoop full m (a + b) current.dropLast with
      | error x => rw [hr] at h; simp at h
      | ok rest =>
        rw [hr] at h
        simp only [pure, Except.pure, Except.ok.injEq] at h
        obtain ⟨l1, l2, i1, i2, i3⟩ := ih b current.dropLast rest hr
        rw [i2]
        refine ⟨_, l2, ?_, rfl, ?_⟩
        · rw [← h, i1]; rfl
        · rw [← i3]
          congr 1
          rw [List.dropLast_eq_take, List.take_take, List.length_take]
          congr 1
          omega

theorem loopArr_append (r c : Nat) (l1 l2 : List Level) (current : List Nat) (data : Arr Nat) :
    loopArr r c (l1 ++ l2) current data = (do
      let x ← loopArr r c l1 current data
      loopArr r c l2 x.1 x.2) := by
  induction l1 generalizing current data with
  | nil => rfl
  | cons L l1 ih =>
    simp only [List.cons_append, loopArr, bind, Except.bind]
    cases stepArr r c L current data with
    | error => rfl
    | ok d =>
      simp only
      have := ih current.dropLast d
      simp only [bind, Except.bind] at this
      exact this

theorem loopArr_moduli (r c : Nat) : ∀ (levels : List Level) (current : List Nat) (data : Arr Nat) (x : List Nat × Arr Nat),
    loopArr r c levels current data = .ok x → x.1 = current.take (current.length - levels.length) := by
  intro levels
  induction levels with
  | nil =>
    intro current data x h
    simp only [loopArr, Except.ok.injEq] at h
    rw [← h]
    simp
  | cons L levels ih =>
    intro current data x h
    simp only [loopArr, bind, Except.bind] at h
    cases hs : stepArr r c L current data with
    | error => rw [hs] at h; simp at h
    | ok d =>
      rw [hs] at h
      rw [ih current.dropLast d x h, List.dropLast_eq_take, List.take_take, List.length_take]
      congr 1
      simp
      omega

/-- Degree and number of elements stay. -/
theorem loopArr_shape (r c : Nat) (tables : List Tables) : ∀ (levels : List Level) (consts : List (List Nat × List Nat))
    (current : List Nat), LevelsFor tables levels consts current → (∀ m ∈ current, 0 < m ∧ m < 2 ^ 32) →
    ∀ (data : Arr Nat) (x : List Nat × Arr Nat), data.n = r * c → loopArr r c levels current data = .ok x →
    x.2.e = data.e ∧ x.2.n = data.n := by
  intro levels
  induction levels with
  | nil =>
    intro consts current _ _ data x _ h
    simp only [loopArr, Except.ok.injEq] at h
    rw [← h]
    exact ⟨rfl, rfl⟩
  | cons L levels ih =>
    intro consts current hL hm data x hn h
    cases consts with
    | nil => simp [LevelsFor] at hL
    | cons gb consts =>
      obtain ⟨rest, qL, rfl, hne, hL, h2⟩ := hL
      have hdrop : (rest ++ [qL]).dropLast = rest := by simp
      simp only [loopArr, bind, Except.bind, hdrop] at h
      rcases Nat.eq_zero_or_pos data.l with hl | hl
      · have : stepArr r c L (rest ++ [qL]) data = .error "TypeError" := by
          unfold stepArr lastLimb
          rw [if_pos hl]
          rfl
        rw [this] at h
        simp at h
      · obtain ⟨s1, s2⟩ := stepArr_spec r c tables rest qL gb L hL (fun m hmm => (hm m (by simp [hmm])).2)
          (fun m hmm => (hm m (by simp [hmm])).1) data hn hl
        cases hb : bdim (data.l - 1) rest.length with
        | error y => rw [s2 y hb] at h; simp at h
        | ok l =>
          obtain ⟨d, d1, d2, d3, -⟩ := s1 l hb
          rw [d1] at h
          obtain ⟨j1, j2⟩ := ih consts rest h2 (fun m hmm => hm m (by simp [hmm])) d x (by rw [d3, hn]) h
          exact ⟨by rw [j1, d2], by rw [j2, d3]⟩

end Verif.RescaleArr
