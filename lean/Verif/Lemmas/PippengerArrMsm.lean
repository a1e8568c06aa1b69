import Verif.Lemmas.PippengerArrX
import Verif.Props.EcBatch
import Verif.Props.PippengerXyzz

/-!
# The assembled MSM classes on arrays
-/

namespace Verif.PippengerArr
open Verif.EcBatch Verif.EcCurve Verif.EcRns Verif.Pippenger Verif.EcChunks

/-! ## The packed operations act point by point -/

theorem chunks_paddLazyTwisted (p q : Quad (Row 25)) : Chunks 25 (paddLazyTwisted (vals p) (vals q)) := by
  obtain ⟨x1, y1, z1, t1⟩ := p
  obtain ⟨x2, y2, z2, t2⟩ := q
  have h2 : 2 ≤ 25 := by omega
  let a := rMulL x1 x2
  let b := rMulL y1 y2
  let d := rMulL z1 z2
  let c := rMulL (rMulL t1 t2) rD
  let h := rCondSubMod h2 rPS (rAdd2 a b)
  let e1 := rCondSubMod h2 rPS (rAdd2 x1 y1)
  let e2 := rCondSubMod h2 rPS (rAdd2 x2 y2)
  let e := rCondSub h2 rPS (rMulL e1 e2) h
  let f := rCondSub h2 rPS d c
  let g := rCondSubMod h2 rPS (rAdd2 d c)
  exact ⟨(rMulL e f).2, (rMulL g h).2, (rMulL f g).2, (rMulL e h).2⟩

theorem chunks_pdulLazyTwisted (p : Quad (Row 25)) : Chunks 25 (pdulLazyTwisted (vals p)) := by
  obtain ⟨x1, y1, z1, t1⟩ := p
  have h2 : 2 ≤ 25 := by omega
  let a := rMulL x1 x1
  let b := rMulL y1 y1
  let ct := rMulL z1 z1
  let ct2 := rCondSubMod h2 rPS (rAdd2 ct ct)
  let h := rCondSub h2 rPS rPS (rAdd2 a b)
  let et := rCondSubMod h2 rPS (rAdd2 x1 y1)
  let e := rCondSubMod h2 rPS (rAdd2 (rMulL et et) h)
  let g := rCondSub h2 rPS b a
  let f := rCondSub h2 rPS g ct2
  exact ⟨(rMulL e f).2, (rMulL g h).2, (rMulL f g).2, (rMulL e h).2⟩

theorem chunks_pnegLazyTwisted (p : Quad (Row 25)) : Chunks 25 (pnegLazyTwisted (vals p)) := by
  obtain ⟨x1, y1, z1, t1⟩ := p
  exact ⟨sub2_length 25 (by omega) _ _ P_S16_CHUNK_length x1.2, y1.2, z1.2,
    sub2_length 25 (by omega) _ _ P_S16_CHUNK_length t1.2⟩

theorem chunks_paddLazyXyzz (p q : Quad (Row 25)) : Chunks 25 (paddLazyXyzz (vals p) (vals q)) := by
  obtain ⟨x1, y1, zz1, zzz1⟩ := p
  obtain ⟨x2, y2, zz2, zzz2⟩ := q
  have h2 : 2 ≤ 25 := by omega
  let u1 := rMulL x1 zz2
  let u2 := rMulL x2 zz1
  let s1 := rMulL y1 zzz2
  let s2 := rMulL y2 zzz1
  let zz := rMulL zz1 zz2
  let zzz := rMulL zzz1 zzz2
  let p := rCondSub h2 rPS u2 u1
  let r := rCondSub h2 rPS s2 s1
  let pp := rMulL p p
  let rr := rMulL r r
  let ppp := rMulL pp p
  let q := rMulL u1 pp
  let zz3 := rMulL zz pp
  let a := rCondSubMod h2 rPS (rCondSubMod h2 rPS (rAdd3 ppp q q))
  let x3 := rCondSub h2 rPS rr a
  let qx3 := rCondSub h2 rPS q x3
  let s1ppp := rMulL s1 ppp
  let zzz3 := rMulL zzz ppp
  let y3 := rCondSub h2 rPS (rMulL r qx3) s1ppp
  exact ⟨x3.2, y3.2, zz3.2, zzz3.2⟩

theorem chunks_pdulLazyXyzz (p : Quad (Row 25)) : Chunks 25 (pdulLazyXyzz (vals p)) := by
  obtain ⟨x1, y1, zz1, zzz1⟩ := p
  have h2 : 2 ≤ 25 := by omega
  let u := rCondSubMod h2 rPS (rAdd2 y1 y1)
  let x1x1 := rMulL x1 x1
  let v := rMulL u u
  let w := rMulL u v
  let s := rMulL x1 v
  let s2 := rCondSubMod h2 rPS (rAdd2 s s)
  let m := rCondSubMod h2 rPS (rCondSubMod h2 rPS (rAdd3 x1x1 x1x1 x1x1))
  let mm := rMulL m m
  let wy1 := rMulL w y1
  let zz3 := rMulL v zz1
  let zzz3 := rMulL w zzz1
  let x3 := rCondSub h2 rPS mm s2
  let sx3 := rCondSub h2 rPS s x3
  let y3 := rCondSub h2 rPS (rMulL m sx3) wy1
  exact ⟨x3.2, y3.2, zz3.2, zzz3.2⟩

theorem lift_row {n : Nat} {q : Q4} (h : Chunks n q) : ∃ r : Quad (Row n), q = vals r :=
  ⟨(⟨q.1, h.1⟩, ⟨q.2.1, h.2.1⟩, ⟨q.2.2.1, h.2.2.1⟩, ⟨q.2.2.2, h.2.2.2⟩), rfl⟩

theorem chunkConst_length (c : Nat) : (chunkConst c).length = 25 := by simp [chunkConst]

theorem lazyTwisted_pw : PW lazyTwistedPacks lazyTwisted (Chunks 25) where
  padd ps qs hl hp hq := (Props.C82_lazy_twisted ps qs hl hp hq).1
  pdul ps hp := congrArg Except.ok (Props.C82_lazy_twisted ps ps rfl hp hp).2.1
  pneg ps hp := congrArg Except.ok (Props.C82_lazy_twisted ps ps rfl hp hp).2.2
  blank := ⟨chunkConst_length 0, chunkConst_length 1, chunkConst_length 1, chunkConst_length 0⟩
  cpadd p q hp hq := by
    obtain ⟨p, rfl⟩ := lift_row hp
    obtain ⟨q, rfl⟩ := lift_row hq
    exact chunks_paddLazyTwisted p q
  cpdul p hp := by
    obtain ⟨p, rfl⟩ := lift_row hp
    exact chunks_pdulLazyTwisted p
  cpneg p hp := by
    obtain ⟨p, rfl⟩ := lift_row hp
    exact chunks_pnegLazyTwisted p
  sel _ _ _ _ := rfl

theorem lazyXyzz_pw : PW lazyXyzzPacks lazyXyzz (Chunks 25) where
  padd ps qs hl hp hq := (Props.C82_lazy_xyzz ps qs hl hp hq).1
  pdul ps hp := congrArg Except.ok (Props.C82_lazy_xyzz ps ps rfl hp hp).2
  pneg ps _ := congrArg (fun l => Except.ok (packOf l)) (List.map_id ps).symm
  blank := ⟨chunkConst_length 0, chunkConst_length 0, chunkConst_length 0, chunkConst_length 0⟩
  cpadd p q hp hq := by
    obtain ⟨p, rfl⟩ := lift_row hp
    obtain ⟨q, rfl⟩ := lift_row hq
    exact chunks_paddLazyXyzz p q
  cpdul p hp := by
    obtain ⟨p, rfl⟩ := lift_row hp
    exact chunks_pdulLazyXyzz p
  cpneg _ hp := hp
  sel _ _ _ _ := rfl

theorem rnsTwisted_pw (mat : Mat) : PW (rnsTwistedPacks mat) (rnsTwisted mat) (fun _ => True) where
  padd ps qs hl _ _ := (Props.C82_rns mat ps qs hl).1
  pdul ps _ := (Props.C82_rns mat ps ps rfl).2.1
  pneg ps _ := congrArg (fun l => Except.ok (packOf l)) (List.map_id ps).symm
  blank := trivial
  cpadd _ _ _ _ := trivial
  cpdul _ _ := trivial
  cpneg _ _ := trivial
  sel _ _ _ _ := rfl

theorem rnsXyzz_pw (mat : Mat) : PW (rnsXyzzPacks mat) (rnsXyzz mat) (fun _ => True) where
  padd ps qs hl _ _ := (Props.C82_rns mat ps qs hl).2.2.1
  pdul ps _ := (Props.C82_rns mat ps ps rfl).2.2.2
  pneg ps _ := congrArg (fun l => Except.ok (packOf l)) (List.map_id ps).symm
  blank := trivial
  cpadd _ _ _ _ := trivial
  cpdul _ _ := trivial
  cpneg _ _ := trivial
  sel _ _ _ _ := rfl

/-! ## The classes -/

theorem length_flatten_const {β : Type} (n : Nat) (l : List (List β)) (h : ∀ r ∈ l, r.length = n) :
    l.flatten.length = l.length * n := by
  rw [List.length_flatten, List.map_congr_left h, List.map_const', List.sum_replicate, smul_eq_mul]

theorem stack_firstOf (pts : List Q4) (h0 : pts ≠ []) : stack (firstOf pts) = .ok (firstOf pts) :=
  stack_ok _ 4 (by norm_num) (by simpa [firstOf] using h0) (by
    intro a ha
    obtain ⟨q, -, rfl⟩ := List.mem_map.1 ha
    rfl)

theorem indexArray_ok (l : List (List Int)) (h0 : l ≠ []) (h : ∀ r ∈ l, ∀ v ∈ r, -2 ^ 31 ≤ v ∧ v < 2 ^ 31) :
    indexArray l = .ok (l.map fun r => r.map toU32) := by
  unfold indexArray
  rw [if_pos, if_neg h0]
  rw [List.all_eq_true]
  intro r hr
  rw [List.all_eq_true]
  intro v hv
  exact decide_eq_true (h r hr v hv)

theorem baSelection_range (k : Nat) (hk : k ≤ 31) (scalars : List Int) :
    ∀ r ∈ baSelection k scalars, ∀ v ∈ r, -2 ^ 31 ≤ v ∧ v < 2 ^ 31 := by
  intro r hr v hv
  obtain ⟨c, -, rfl⟩ := List.mem_map.1 hr
  obtain ⟨w, -, rfl⟩ := List.mem_map.1 hv
  have h1 := slice_nonneg k c w
  have h2 := slice_lt k c w
  have h3 : (2 : Int) ^ k ≤ 2 ^ 31 := pow_le_pow_right₀ (by norm_num) hk
  constructor <;> omega

theorem groupRows_bad {β : Type} (n par : Nat) (hn : 0 < n) (l : List (List β)) (h : ∀ r ∈ l, r.length = n)
    (hd : ¬ par ∣ l.length) : groupRows (n * par) l = .error "ValueError" := by
  unfold groupRows
  rw [if_neg]
  rintro ⟨_, h2⟩
  rw [length_flatten_const n l h, Nat.mul_comm] at h2
  exact hd ((Nat.mul_dvd_mul_iff_left hn).1 (Nat.dvd_of_mod_eq_zero h2))

theorem groupPoints_bad (par : Nat) (pts : Arr3) (h : par = 0 ∨ ¬ par ∣ pts.length) :
    groupPoints par pts = .error "ValueError" := by
  unfold groupPoints
  rw [if_neg]
  rintro ⟨h1, h2⟩
  rcases h with h | h
  · exact h1 h
  · exact h (Nat.dvd_of_mod_eq_zero h2)

section
variable {P : Packs} {o : Ops Q4} {Q : Q4 → Prop} (hP : PW P o Q)
include hP

theorem PW.finish {wn par n k : Nat} (hwn : 0 < wn) (hpar : 0 < par) {b : List (List Q4)} (hb : Tab Q (par * wn) n b) :
    (do
      let w ← brTwistedA P n (pack4 b) (bcastBlank (coordsA o.blank) (wn * par)) (bcastBlank (coordsA o.blank) (wn * par))
      let w ← batchSumA P par (bcastBlank (coordsA o.blank) wn) w
      windowMergeA P k w) = .ok (coordsA (windowMerge o k (batchSum o wn par (b.map (bucketReduce o))))) := by
  obtain ⟨h1, h2⟩ := hP.br (Nat.mul_pos hpar hwn) hb
  obtain ⟨h3, h4, h5⟩ := hP.batch (wn := wn) hpar (b.map (bucketReduce o)) (by rw [List.length_map, hb.rows]) h2
  rw [Nat.mul_comm wn par, h1, ok_bind, h3, ok_bind]
  exact (hP.merge k _ (by intro h; rw [h] at h4; simp at h4; omega) h5).1

theorem PW.msmTwisted (conv : List Int → Except String Arr2) (hblank : conv [0, 1, 1, 0] = .ok (coordsA o.blank))
    (points : List (List Int)) (pts : List Q4) (hc : points.mapM conv = .ok (firstOf pts)) (hq : ∀ q ∈ pts, Q q)
    (k par : Nat) (hk : 0 < k) (hk' : k ≤ 31) (scalars : List Int) :
    msmTwistedA P conv k par scalars points = (msmTwisted o k par scalars pts).map coordsA := by
  unfold msmTwistedA Pippenger.msmTwisted
  simp only
  rw [hblank, ok_bind, hc, ok_bind]
  have hwn := windowNum_pos k hk
  by_cases h0 : pts = []
  · subst h0
    rfl
  rw [stack_firstOf pts h0, ok_bind]
  by_cases hs0 : scalars = []
  · subst hs0
    have : shapesOk par pts.length ([] : List Int).length = false := by
      have : pts.length ≠ 0 := by simpa using h0
      simp [shapesOk, this]
    rw [this]
    rfl
  have hrl : ∀ r ∈ (baSelection k scalars).map (fun r => r.map toU32), r.length = windowNum k := by
    intro r hr
    obtain ⟨r', hr', rfl⟩ := List.mem_map.1 hr
    obtain ⟨c, -, rfl⟩ := List.mem_map.1 hr'
    simp
  have hsl : ((baSelection k scalars).map fun r => r.map toU32).length = scalars.length := by simp [baSelection]
  rw [indexArray_ok _ (by simpa [baSelection] using hs0) (baSelection_range k hk' scalars), ok_bind]
  by_cases hp : par = 0 ∨ ¬ par ∣ pts.length
  · have : shapesOk par pts.length scalars.length = false := by
      have hl : pts.length ≠ 0 := by simpa using h0
      rcases hp with rfl | hp
      · simp [shapesOk, hl]
      · have : pts.length % par ≠ 0 := fun e => hp (Nat.dvd_of_mod_eq_zero e)
        simp [shapesOk, this]
    rw [this, groupPoints_bad par _ (by simpa [firstOf] using hp)]
    rfl
  push Not at hp
  obtain ⟨hp0, hpd⟩ := hp
  have hpar : 0 < par := Nat.pos_of_ne_zero hp0
  rw [groupPoints_firstOf par hpar pts hpd, ok_bind]
  by_cases hpm : par ∣ scalars.length
  swap
  · have : shapesOk par pts.length scalars.length = false := by
      have : pts.length ≠ scalars.length := fun e => hpm (e ▸ hpd)
      simp [shapesOk, this]
    rw [this, groupRows_bad (windowNum k) par hwn _ hrl (by rwa [hsl])]
    rfl
  obtain ⟨S, hS⟩ := hpd
  obtain ⟨T, hT⟩ := hpm
  have hfl : ((baSelection k scalars).map fun r => r.map toU32).flatten.length = T * (windowNum k * par) := by
    rw [length_flatten_const _ _ hrl, hsl, hT]
    ring
  rw [groupRows_ok (windowNum k * par) T (Nat.mul_pos hwn hpar) _ hfl, ok_bind, hS, hT, Nat.mul_div_cancel_left _ hpar,
    Nat.mul_div_cancel_left _ hpar, initBuckets_coords]
  by_cases hST : S = T
  · subst hST
    have hSpos : 0 < S := by
      rcases Nat.eq_zero_or_pos S with rfl | h
      · simp at hS
        exact absurd hS h0
      · exact h
    have hn : 0 < 2 ^ k - 1 := by
      have : 2 ^ 1 ≤ 2 ^ k := Nat.pow_le_pow_right (by norm_num) hk
      omega
    obtain ⟨h1, h2⟩ := hP.ba (wn := windowNum k) hn hwn hpar hSpos
      (Tab.replicate (par * windowNum k) (2 ^ k - 1) o.blank hP.blank) pts hS hq _ hfl
    rw [h1, ok_bind, hP.finish hwn hpar h2]
    have : shapesOk par (par * S) (par * S) = true := by
      simp [shapesOk, hp0, Nat.ne_of_gt hSpos]
    rw [this, if_pos rfl, Nat.mul_comm (windowNum k) par]
    rfl
  · have e : baTwistedA P T (pack4 (List.replicate (par * windowNum k) (List.replicate (2 ^ k - 1) o.blank)))
        ((List.range S).map fun s => packOf (reshapeRow pts par s)) ((List.range T).map fun s =>
          reshapeRow ((baSelection k scalars).map fun r => r.map toU32).flatten (windowNum k * par) s) =
        .error "ValueError" := by
      unfold baTwistedA
      simp only
      rw [if_neg]
      rintro ⟨-, h⟩
      simp at h
      exact hST h
    have : shapesOk par (par * S) (par * T) = false := by
      have : par * S ≠ par * T := fun h => hST (Nat.eq_of_mul_eq_mul_left hpar h)
      simp [shapesOk, hp0]
      exact fun _ => hST
    rw [e, this]
    rfl

theorem PW.msmTwistedSigned (conv : List Int → Except String Arr2) (hblank : conv [0, 1, 1, 0] = .ok (coordsA o.blank))
    (points : List (List Int)) (pts : List Q4) (hc : points.mapM conv = .ok (firstOf pts)) (hq : ∀ q ∈ pts, Q q)
    (h0 : pts ≠ []) (k par : Nat) (hk : 0 < k) (hk' : k ≤ 32) (scalars : List Int) :
    msmTwistedSignedA P conv k par scalars points = (msmTwistedSigned o k par scalars pts).map coordsA := by
  unfold msmTwistedSignedA Pippenger.msmTwistedSigned
  simp only
  rw [hblank, ok_bind, hc, ok_bind, stack_firstOf pts h0, ok_bind]
  by_cases hcarry : ∀ c ∈ scalars, (signedLoop k c (windowNum k) 0 0).2.2 = 0
  swap
  · push Not at hcarry
    rw [baSelectionSigned_error k scalars hcarry]
    rfl
  rw [baSelectionSigned_eq k scalars hcarry, ok_bind, ok_bind]
  have hwn := windowNum_pos k hk
  by_cases hs0 : scalars = []
  · subst hs0
    have : shapesOk par pts.length ([] : List Int).length = false := by
      have : pts.length ≠ 0 := by simpa using h0
      simp [shapesOk, this]
    rw [this]
    rfl
  have hspec := fun c => signedLoop_spec k hk c (windowNum k) 0 0 le_rfl (by decide)
  have hpow : (2 : Int) ^ (k - 1) ≤ 2 ^ 31 := pow_le_pow_right₀ (by norm_num) (by omega)
  rw [List.map_map, List.map_map, List.map_map]
  have hix := indexArray_ok (scalars.map ((fun r : List Int × List Int => r.1) ∘ fun c =>
      ((signedLoop k c (windowNum k) 0 0).1, (signedLoop k c (windowNum k) 0 0).2.1))) (by simpa using hs0) (by
    intro r hr v hv
    obtain ⟨c, -, rfl⟩ := List.mem_map.1 hr
    change v ∈ (signedLoop k c (windowNum k) 0 0).1 at hv
    obtain ⟨t, ht, rfl⟩ := List.getElem_of_mem hv
    have ht' : t < windowNum k := (hspec c).1 ▸ ht
    have hb := (hspec c).2.2.2.2.1 t ht'
    rw [getD_lt _ _ _ ht] at hb
    constructor <;> omega)
  rw [List.map_map] at hix
  rw [hix, ok_bind]
  have hrl : ∀ r ∈ scalars.map ((fun r => List.map toU32 r) ∘ (fun r : List Int × List Int => r.1) ∘ fun c =>
      ((signedLoop k c (windowNum k) 0 0).1, (signedLoop k c (windowNum k) 0 0).2.1)), r.length = windowNum k := by
    intro r hr
    obtain ⟨c, -, rfl⟩ := List.mem_map.1 hr
    simpa using (hspec c).1
  have hgl : ∀ r ∈ scalars.map ((fun r : List Int × List Int => r.2) ∘ fun c =>
      ((signedLoop k c (windowNum k) 0 0).1, (signedLoop k c (windowNum k) 0 0).2.1)), r.length = windowNum k := by
    intro r hr
    obtain ⟨c, -, rfl⟩ := List.mem_map.1 hr
    simpa using (hspec c).2.1
  rw [show ((fun r : List Int × List Int => List.map toU32 r.1) ∘ fun c =>
      ((signedLoop k c (windowNum k) 0 0).1, (signedLoop k c (windowNum k) 0 0).2.1)) =
      ((fun r => List.map toU32 r) ∘ (fun r : List Int × List Int => r.1) ∘ fun c =>
      ((signedLoop k c (windowNum k) 0 0).1, (signedLoop k c (windowNum k) 0 0).2.1)) from rfl]
  generalize hsel : scalars.map ((fun r => List.map toU32 r) ∘ (fun r : List Int × List Int => r.1) ∘ fun c =>
      ((signedLoop k c (windowNum k) 0 0).1, (signedLoop k c (windowNum k) 0 0).2.1)) = sel at *
  generalize hsgn : scalars.map ((fun r : List Int × List Int => r.2) ∘ fun c =>
      ((signedLoop k c (windowNum k) 0 0).1, (signedLoop k c (windowNum k) 0 0).2.1)) = sgn at *
  have hsl : sel.length = scalars.length := by rw [← hsel, List.length_map]
  have hgsl : sgn.length = scalars.length := by rw [← hsgn, List.length_map]
  by_cases hp : par = 0 ∨ ¬ par ∣ pts.length
  · have : shapesOk par pts.length scalars.length = false := by
      have hl : pts.length ≠ 0 := by simpa using h0
      rcases hp with rfl | hp
      · simp [shapesOk, hl]
      · have : pts.length % par ≠ 0 := fun e => hp (Nat.dvd_of_mod_eq_zero e)
        simp [shapesOk, this]
    rw [this, groupPoints_bad par _ (by simpa [firstOf] using hp)]
    rfl
  push Not at hp
  obtain ⟨hp0, hpd⟩ := hp
  have hpar : 0 < par := Nat.pos_of_ne_zero hp0
  rw [groupPoints_firstOf par hpar pts hpd, ok_bind]
  by_cases hpm : par ∣ scalars.length
  swap
  · have : shapesOk par pts.length scalars.length = false := by
      have : pts.length ≠ scalars.length := fun e => hpm (e ▸ hpd)
      simp [shapesOk, this]
    rw [this, groupRows_bad (windowNum k) par hwn _ hrl (by rwa [hsl])]
    rfl
  obtain ⟨S, hS⟩ := hpd
  obtain ⟨T, hT⟩ := hpm
  have hfl : sel.flatten.length = T * (windowNum k * par) := by
    rw [length_flatten_const _ _ hrl, hsl, hT]
    ring
  have hgfl : sgn.flatten.length = T * (windowNum k * par) := by
    rw [length_flatten_const _ _ hgl, hgsl, hT]
    ring
  rw [groupRows_ok (windowNum k * par) T (Nat.mul_pos hwn hpar) _ hfl, ok_bind,
    groupRows_ok (windowNum k * par) T (Nat.mul_pos hwn hpar) _ hgfl, ok_bind, hS, hT, Nat.mul_div_cancel_left _ hpar,
    Nat.mul_div_cancel_left _ hpar, initBuckets_coords]
  by_cases hST : S = T
  · subst hST
    have hSpos : 0 < S := by
      rcases Nat.eq_zero_or_pos S with rfl | h
      · simp at hS
        exact absurd hS h0
      · exact h
    obtain ⟨h1, h2⟩ := hP.baSigned (wn := windowNum k) (Nat.two_pow_pos (k - 1)) hwn hpar hSpos
      (Tab.replicate (par * windowNum k) (2 ^ (k - 1)) o.blank hP.blank) pts hS hq _ hfl _ hgfl
    rw [h1, ok_bind, hP.finish hwn hpar h2]
    have : shapesOk par (par * S) (par * S) = true := by
      simp [shapesOk, hp0, Nat.ne_of_gt hSpos]
    rw [this, if_pos rfl, Nat.mul_comm (windowNum k) par]
    rfl
  · have e : baSignedA P T (pack4 (List.replicate (par * windowNum k) (List.replicate (2 ^ (k - 1)) o.blank)))
        ((List.range S).map fun s => packOf (reshapeRow pts par s)) ((List.range T).map fun s =>
          reshapeRow sel.flatten (windowNum k * par) s) ((List.range T).map fun s =>
          reshapeRow sgn.flatten (windowNum k * par) s) = .error "ValueError" := by
      unfold baSignedA
      simp only
      rw [if_neg]
      rintro ⟨-, h, -⟩
      simp at h
      exact hST h
    have : shapesOk par (par * S) (par * T) = false := by
      simp [shapesOk, hp0]
      exact fun _ => hST
    rw [e, this]
    rfl

theorem PW.msmXyzz (conv : List Int → Except String Arr2) (hblank : conv [0, 0, 0, 0] = .ok (coordsA o.blank))
    (points : List (List Int)) (pts : List Q4) (hc : (points.mapM fun c => conv (c ++ [1, 1])) = .ok (firstOf pts))
    (hq : ∀ q ∈ pts, Q q) (k : Nat) (hk : 0 < k) (hk' : k ≤ 32) (scalars : List Int) :
    msmXyzzA P conv k scalars points = (msmXyzz o k scalars pts).map coordsA := by
  unfold msmXyzzA Pippenger.msmXyzz
  simp only
  rw [hblank, ok_bind, hc, ok_bind]
  have hwn := windowNum_pos k hk
  by_cases h0 : pts = []
  · subst h0
    rfl
  rw [stack_firstOf pts h0, ok_bind]
  have hU : indexArrayU (xyzzSelection k scalars) = .ok (xyzzSelection k scalars) := by
    unfold indexArrayU
    rw [if_pos]
    rw [List.all_eq_true]
    intro r hr
    rw [List.all_eq_true]
    intro v hv
    obtain ⟨c, -, rfl⟩ := List.mem_map.1 hr
    obtain ⟨w, -, rfl⟩ := List.mem_map.1 hv
    have h1 := slice_nonneg k c w
    have h2 := slice_lt k c w
    have h3 : (2 : Int) ^ k ≤ 2 ^ 32 := pow_le_pow_right₀ (by norm_num) hk'
    exact decide_eq_true (by omega)
  rw [hU, ok_bind]
  by_cases hmn : pts.length = scalars.length
  swap
  · have e : shapesOk 1 pts.length scalars.length = false := by simp [shapesOk, hmn]
    have : baXyzzA P scalars.length (initBuckets (coordsA o.blank) (windowNum k) 1 (2 ^ k)) (firstOf pts)
        (xyzzSelection k scalars) ((zeroStates k scalars).take scalars.length) = .error "ValueError" := by
      unfold baXyzzA
      simp only
      rw [if_neg]
      rintro ⟨h, -⟩
      simp [firstOf, xyzzSelection] at h
      exact hmn h
    rw [e, this]
    rfl
  have hsh : shapesOk 1 pts.length scalars.length = true := by
    have : scalars.length ≠ 0 := by rw [← hmn]; simpa using h0
    simp [shapesOk, hmn, this, Nat.mod_one]
  have hzl := zeroStates_length k scalars
  have hzs := zeroStates_spec k scalars
  rw [hsh, if_pos rfl, initBuckets_coords, one_mul, ← hmn]
  have hzm : ∀ r ∈ (zeroStates k scalars).take pts.length, r.length = windowNum k := by
    intro r hr
    obtain ⟨t, ht, rfl⟩ := List.getElem_of_mem (List.mem_of_mem_take hr)
    have := (hzs t (by omega)).1
    rwa [getD_lt _ _ _ ht] at this
  obtain ⟨h1, -, h2⟩ := hP.xBa (Nat.two_pow_pos k) (Tab.replicate (windowNum k) (2 ^ k) o.blank hP.blank) pts hq
    (xyzzSelection k scalars) (by simp [xyzzSelection, hmn]) (by
      intro r hr
      obtain ⟨c, -, rfl⟩ := List.mem_map.1 hr
      simp) ((zeroStates k scalars).take pts.length) (by rw [List.length_take, hzl]; omega) hzm
  rw [h1, ok_bind]
  have hlast := hzs scalars.length le_rfl
  have hl1 : (zeroStates k scalars).length - 1 = scalars.length := by omega
  rw [hl1]
  obtain ⟨h3, -, h4⟩ := hP.xBr hwn (Nat.two_pow_pos k) h2 ((zeroStates k scalars).getD scalars.length []) hlast.1 (by
    intro r hr
    obtain ⟨t, ht, rfl⟩ := List.getElem_of_mem hr
    have := (hlast.2 t (by rwa [hlast.1] at ht)).1
    rwa [getD_lt _ _ _ ht] at this)
  rw [h3, ok_bind, (hP.merge k _ (by
    intro h
    have := congrArg List.length h
    simp at this
    omega) (by
    intro q hq
    obtain ⟨w, hw, rfl⟩ := List.mem_map.1 hq
    exact h4 w (List.mem_range.1 hw))).1, h2.rows]
  rfl

end

end Verif.PippengerArr
