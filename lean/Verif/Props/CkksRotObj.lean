import Verif.Lemmas.CkksRotObjRep
import Verif.Props.CkksObj
import Verif.Props.Conjugate

/-!
# Property C99: key switching, conjugation and blind rotation on ciphertext objects
-/

namespace Verif.Props
open Verif.CkksRotate (isSubst_abs sigma_comp)
open Verif.Barrett Verif.Slots Verif.CkksKeys Verif.CkksMul Verif.RescaleArr Verif.Automorphism Verif.CkksRotObj Obj

namespace RotObj

theorem fits_reduced {k : Nat} {ms : List Nat} {els : Nat} {A : Arr Nat} (h : Fits k ms els A) {a : Nat} (ha : a < els) :
    Reduced k ms (fun i t => A.get a t i) := fun i hi t ht => h.red a ha t ht i hi

theorem rep_fits {k : Nat} {ms : List Nat} {R : CtObj} {out : Ciphertext} (hr : Rep (2 ^ k) R out) (hm : out.moduli = ms)
    (h0 : Reduced k ms out.c0) (h1 : Reduced k ms out.c1) : Fits k ms 2 R.data := by
  refine ⟨hr.e, hr.n, by rw [hr.l, hm], ?_⟩
  intro a ha t ht i hi
  obtain rfl | rfl : a = 0 ∨ a = 1 := by omega
  · rw [hr.c0 t i ht (by rw [hm]; exact hi)]; exact h0 i hi t ht
  · rw [hr.c1 t i ht (by rw [hm]; exact hi)]; exact h1 i hi t ht

theorem rep_phase {k : Nat} {ms : List Nat} (hM : Moduli k ms) {R : CtObj} {out : Ciphertext} (hr : Rep (2 ^ k) R out) (hm : out.moduli = ms)
    (s : Nat → Int) {i : Nat} (hi : i < ms.length) :
    phase k ms s R.data i = ringOf k (ms.getD i 0) (out.c0 i) + ringOf k (ms.getD i 0) (out.c1 i) * polyOf k (ms.getD i 0) s := by
  have hp := (hM.at hi).1
  unfold phase limb
  have g0 : ringOf k (ms.getD i 0) (fun p => R.data.get 0 p i) = ringOf k (ms.getD i 0) (out.c0 i) :=
    ringOf_congr hp (fun t ht => by rw [hr.c0 t i ht (by rw [hm]; exact hi)])
  have g1 : ringOf k (ms.getD i 0) (fun p => R.data.get 1 p i) = ringOf k (ms.getD i 0) (out.c1 i) :=
    ringOf_congr hp (fun t ht => by rw [hr.c1 t i ht (by rw [hm]; exact hi)])
  rw [g0, g1]

theorem repKey_of_fits {k : Nat} {ms : List Nat} {dnum : Nat} {A : Arr Nat} (h : Fits k ms dnum A) :
    RepKey (2 ^ k) ms.length dnum A ((List.range A.e).map (CkksObj.keyPart A)) := by
  refine ⟨h.e.ge, h.n, h.l, by simp [h.e], ?_⟩
  intro j t i hj ht hi
  rw [List.getD_eq_getElem _ _ (by simpa [h.e] using hj), List.getElem_map, List.getElem_range]
  unfold CkksObj.keyPart
  rw [pick_eq (by rw [h.n]; exact ht), pick_eq (by rw [h.l]; exact hi)]

theorem switcher_shape {q p : List Nat} {dnum r c : Nat} {S : KeySwitcher} (h : precomputeSwitch q p dnum r c = .ok S) :
    S.r = r ∧ S.c = c ∧ S.tablesQ.length = dnum ∧ S.tablesOut.length = dnum := by
  unfold precomputeSwitch at h
  split at h
  · simp at h
  · obtain ⟨parts, h1, h2⟩ := CkksObj.bind_ok_iff.1 h
    obtain rfl := Except.ok.inj h2
    have := (RescaleObj.mapM_take _ _ _ h1).1
    simp only [List.length_map, List.length_range] at this ⊢
    exact ⟨trivial, trivial, this, this⟩

end RotObj

open RotObj

/-- C99: `key_switch` on objects: for a kernel of the moduli, a key from the old secret (`src`) to `s` and a ciphertext over the
moduli with at least two elements, the call succeeds and returns a pair over all moduli that represents under `s` the product of
`P` and what the ciphertext represents under the old secret, up to the noise of C45. Further elements are ignored. -/
theorem C99_key_switch_partial (kr kc : Nat) (q p : List Nat) (h : Basis kr kc q p) (dnum : Nat) (hd : 0 < dnum)
    (hparts : (dnum - 1) * ((q.length + dnum - 1) / dnum) < q.length) (bc : BcKernel) (start : Nat)
    (hbc : ∀ part, part < dnum → bc[start + part]? = some (partModuli q dnum part, otherModuli q p dnum part))
    (ct : CtObj) (els : Nat) (h2 : 2 ≤ els) (hct : Fits (kr + kc) q els ct.data) (hmod : ct.moduli = q)
    (s : Nat → Int) (src : Mat) (e : Nat → Nat → Int) (B : Int) (hB0 : 0 ≤ B)
    (hB : ∀ part, part < dnum → ∀ t, t < 2 ^ (kr + kc) → |e part t| ≤ B)
    (ksk : CkksObj.EvkObj) (hka : Fits (kr + kc) (q ++ p) dnum ksk.a) (hkb : Fits (kr + kc) (q ++ p) dnum ksk.b)
    (hk : SwitchKey (kr + kc) q p dnum s src e (keysOf ksk)) :
    ∃ S R, precomputeSwitch q p dnum (2 ^ kr) (2 ^ kc) = .ok S ∧
      CkksRotObj.keySwitch S ct ksk p bc (some (q ++ p)) start = .ok R ∧ R.moduli = q ++ p ∧ Fits (kr + kc) (q ++ p) 2 R.data ∧
      ∃ ν : Nat → Int,
        (∀ t, t < 2 ^ (kr + kc) → |ν t| ≤ ∑ part ∈ Finset.range dnum,
          2 ^ (kr + kc) * (((partModuli q dnum part).length * (partModuli q dnum part).prod : Nat) : Int) * B) ∧
        ∀ i, i < (q ++ p).length →
          phase (kr + kc) (q ++ p) s R.data i =
          (if i < q.length then (p.prod : Rq (kr + kc) ((q ++ p).getD i 0)) *
            (ringOf (kr + kc) ((q ++ p).getD i 0) (limb ct.data 0 i) +
              ringOf (kr + kc) ((q ++ p).getD i 0) (limb ct.data 1 i) * ringOf (kr + kc) ((q ++ p).getD i 0) (src i)) else 0) +
          polyOf (kr + kc) ((q ++ p).getD i 0) ν := by
  obtain ⟨S, out, s1, s2, s3, s4, s5, ν, s6, s7⟩ := C45_key_switch kr kc q p h dnum hd hparts bc start hbc (matCt ct) hmod
    (fits_reduced hct (by omega)) (fits_reduced hct (by omega)) s src e B hB0 hB (keysOf ksk) hk
  obtain ⟨x1, x2, x3, -⟩ := switcher_shape s1
  have hn : ct.data.n = 2 ^ (kr + kc) := hct.n
  obtain ⟨R, r1, r2⟩ := keySwitch_rep (S := S) (ct := ct) (ksk := ksk) (p := p) (bc := bc) (ms := q ++ p) (start := start)
    (keys := keysOf ksk) (out := out) (by rw [hmod]) (by rw [hct.e]; exact h2) (by rw [hn, x1, x2, pow_add]) (by rw [hct.l, hmod])
    (by rw [hn, x3, hmod]; exact repKey_of_fits hka) (by rw [hn, x3, hmod]; exact repKey_of_fits hkb) s2
  rw [hn] at r2
  refine ⟨S, R, s1, r1, by rw [r2.moduli, s3], rep_fits r2 s3 s4 s5, ν, s6, ?_⟩
  intro i hi
  rw [rep_phase h.moduli r2 s3 s hi, s7 i hi]
  rfl

theorem _root_.Verif.CkksMul.Basis.small {kr kc : Nat} {q p : List Nat} (h : Basis kr kc q p) : ∀ m ∈ q ++ p, 0 < m ∧ m < 2 ^ 32 := fun m hm =>
  ⟨(h.four m hm).prime.pos, lt_trans (h.four m hm).good.lt (by norm_num)⟩

/-- C99: `conjugate` on objects: if the ciphertext represents the integer polynomial `m` under `s`, the result represents
`m(X^(-1))` under `s`, over the moduli of the ciphertext, up to the noise of C43. -/
theorem C99_conjugate (kr kc : Nat) (q p : List Nat) (h : Basis kr kc q p) (hc : Chain kr kc (q ++ p)) (dnum : Nat)
    (hd : 0 < dnum) (hparts : (dnum - 1) * ((q.length + dnum - 1) / dnum) < q.length) :
    ∃ S R, precomputeSwitch q p dnum (2 ^ kr) (2 ^ kc) = .ok S ∧
      RescaleArr.precompute (q ++ p) p.length (2 ^ kr) (2 ^ kc) = .ok R ∧
    ∀ (bc : BcKernel) (start : Nat),
      (∀ part, part < dnum → bc[start + part]? = some (partModuli q dnum part, otherModuli q p dnum part)) →
    ∀ (s sInv : Nat → Int) (Bs : Int), 0 ≤ Bs → (∀ t, t < 2 ^ (kr + kc) → |s t| ≤ Bs) → sInv 0 = s 0 →
      (∀ j, 0 < j → j < 2 ^ (kr + kc) → sInv (2 ^ (kr + kc) - j) = -s j) →
    ∀ (src : Mat), (∀ i, i < q.length → ringOf (kr + kc) (q.getD i 0) (src i) = polyOf (kr + kc) (q.getD i 0) sInv) →
    ∀ (e : Nat → Nat → Int) (B : Int), 0 ≤ B → (∀ part, part < dnum → ∀ t, t < 2 ^ (kr + kc) → |e part t| ≤ B) →
    ∀ (key : CkksObj.EvkObj), Fits (kr + kc) (q ++ p) dnum key.a → Fits (kr + kc) (q ++ p) dnum key.b →
      SwitchKey (kr + kc) q p dnum s src e (keysOf key) →
    ∀ (ct : CtObj) (els : Nat), 2 ≤ els → Fits (kr + kc) q els ct.data → ct.moduli = q →
    ∀ (m mInv : Nat → Int), mInv 0 = m 0 → (∀ j, 0 < j → j < 2 ^ (kr + kc) → mInv (2 ^ (kr + kc) - j) = -m j) →
      (∀ i, i < q.length → phase (kr + kc) q s ct.data i = polyOf (kr + kc) (q.getD i 0) m) →
    ∃ out, CkksRotObj.conjugate S ct key p bc (some (q ++ p)) (some R) start = .ok out ∧ out.moduli = q ∧
      Fits (kr + kc) q 2 out.data ∧
      ∃ η : Nat → Int, (∀ t, t < 2 ^ (kr + kc) → (p.prod : Int) * |η t| ≤ (∑ part ∈ Finset.range dnum,
          2 ^ (kr + kc) * (((partModuli q dnum part).length * (partModuli q dnum part).prod : Nat) : Int) * B) +
          ((p.length * p.prod : Nat) : Int) * (1 + 2 ^ (kr + kc) * Bs)) ∧
        ∀ i, i < q.length → phase (kr + kc) q s out.data i = polyOf (kr + kc) (q.getD i 0) (fun t => mInv t + η t) := by
  obtain ⟨S, R0, s1, r1, hspec⟩ := C43_conjugate kr kc q p h hc dnum hd hparts
  obtain ⟨R, r2, -⟩ := (RescaleObj.precompute_spec (q ++ p) p.length (2 ^ kr) (2 ^ kc)).2 R0 r1
  obtain ⟨x1, x2, x3, -⟩ := switcher_shape s1
  refine ⟨S, R, s1, r2, ?_⟩
  intro bc start hbc s sInv Bs hBs0 hBs hs0 hsj src hsrc e B hB0 hB key hka hkb hk ct els h2 hct hmod m mInv hm0 hmj hm
  obtain ⟨out, o1, o2, o3, o4, η, o5, o6⟩ := hspec bc start hbc s sInv Bs hBs0 hBs hs0 hsj src hsrc e B hB0 hB (keysOf key) hk (matCt ct) hmod
    (fits_reduced hct (by omega)) (fits_reduced hct (by omega)) m mInv hm0 hmj hm
  obtain ⟨y, y1, y2⟩ := CkksObj.bind_ok_iff.1 o1
  have hn : ct.data.n = 2 ^ (kr + kc) := hct.n
  rw [← hn] at y1
  obtain ⟨Y, Y1, Y2⟩ := keySwitch_rep (S := S) (ct := ⟨flipArr ct.data, ct.moduli⟩) (ksk := key) (p := p) (bc := bc) (ms := q ++ p)
    (start := start) (keys := keysOf key) (out := y) (by simp only; rw [hmod]) (by simp only [flipArr]; rw [hct.e]; exact h2)
    (by simp only [flipArr]; rw [hn, x1, x2, pow_add]) (by simp only [flipArr]; rw [hct.l, hmod])
    (by simp only [flipArr]; rw [hn, x3, hmod]; exact repKey_of_fits hka)
    (by simp only [flipArr]; rw [hn, x3, hmod]; exact repKey_of_fits hkb) y1
  have hfl : (flipArr ct.data).n = 2 ^ (kr + kc) := hn
  simp only [hfl] at Y2
  obtain ⟨Z, z1, z2⟩ := rescale_rep r1 r2 h.small Y2 y2
  refine ⟨Z, ?_, by rw [z2.moduli, o2], rep_fits z2 o2 o3 o4, η, o5, ?_⟩
  · unfold CkksRotObj.conjugate
    rw [Y1]
    exact z1
  · intro i hi
    rw [rep_phase h.left z2 o2 s hi, o6 i hi]

/-- C99: `hmuxrot` on objects: what the ciphertext represents is multiplied by the bit and rotated, up to the noise of C46. -/
theorem C99_hmuxrot_partial (kr kc : Nat) (q p : List Nat) (h : Basis kr kc q p) (hc : Chain kr kc (q ++ p)) :
    ∃ K, CkksRotObj.precompute q p 1 (2 ^ kr) (2 ^ kc) p.length = .ok K ∧
    ∀ (s sRot : Nat → Int) (Bs : Int), 0 ≤ Bs → (∀ t, t < 2 ^ (kr + kc) → |s t| ≤ Bs) →
    ∀ (beta j g : Nat) (hg2 : g % 2 = 1), g < 2 * 2 ^ (kr + kc) → (5 ^ j * g) % (2 * 2 ^ (kr + kc)) = 1 →
      IsSubst (2 ^ (kr + kc)) g s sRot →
    ∀ (e0 e1 : Nat → Int) (B : Int), 0 ≤ B → (∀ t, t < 2 ^ (kr + kc) → |e0 t| ≤ B ∧ |e1 t| ≤ B) →
    ∀ (key : HmrObj) (n0 n1 : Nat), 2 ≤ n0 → 2 ≤ n1 → Fits (kr + kc) (q ++ p) n0 key.key0.data → Fits (kr + kc) (q ++ p) n1 key.key1.data →
      RotKey (kr + kc) q p s sRot beta e0 e1 (matHmr key) →
    ∀ (ct : CtObj) (els : Nat), 2 ≤ els → Fits (kr + kc) q els ct.data → ct.moduli = q →
    ∃ R, CkksRotObj.hmuxrot K ct key j p 0 = .ok R ∧ R.moduli = q ∧ Fits (kr + kc) q 2 R.data ∧
      ∃ η : Nat → Int, (∀ t, t < 2 ^ (kr + kc) → (p.prod : Int) * |η t| ≤ rotNoise (kr + kc) q p B Bs) ∧
        ∀ i, i < q.length → phase (kr + kc) q s R.data i =
          beta * sigma g hg2 (phase (kr + kc) q s ct.data i) + polyOf (kr + kc) (q.getD i 0) η := by
  obtain ⟨K0, k1, hspec⟩ := C46_hmuxrot kr kc q p h hc
  obtain ⟨K, k2, k3, k4⟩ := precompute_rep h.neQ h.neP h.small k1
  refine ⟨K, k2, ?_⟩
  intro s sRot Bs hBs0 hBs beta j g hg2 hg hgj hrot e0 e1 B hB0 hB key n0 n1 hn0 hn1 hf0 hf1 hkey ct els h2 hct hmod
  obtain ⟨out, o1, o2, o3, o4, η, o5, o6⟩ := hspec s sRot Bs hBs0 hBs beta j g hg2 hg hgj hrot e0 e1 B hB0 hB (matHmr key) hkey (matCt ct) hmod
    (fits_reduced hct (by omega)) (fits_reduced hct (by omega))
  obtain ⟨S, s1, hk⟩ := CkksObj.bind_ok_iff.1 k1
  obtain ⟨R0, -, hk⟩ := CkksObj.bind_ok_iff.1 hk
  obtain rfl := Except.ok.inj hk
  obtain ⟨x1, x2, x3, -⟩ := switcher_shape s1
  have hn : ct.data.n = 2 ^ (kr + kc) := hct.n
  rw [← hn] at o1
  obtain ⟨R, r1, r2⟩ := hmuxrot_rep k3 x3 (ct := ct) (key := key) (by rw [k4, hmod]) (by rw [hct.e]; exact h2)
    (by rw [hn]; show _ = S.r * S.c; rw [x1, x2, pow_add]) (by rw [hct.l, hmod])
    ⟨by rw [hf0.e]; exact hn0, by rw [hf0.n, hn], by rw [hf0.l, hmod]⟩ ⟨by rw [hf1.e]; exact hn1, by rw [hf1.n, hn], by rw [hf1.l, hmod]⟩ o1
  rw [hn] at r2
  refine ⟨R, r1, by rw [r2.moduli, o2], rep_fits r2 o2 o3 o4, η, o5, ?_⟩
  intro i hi
  rw [rep_phase h.left r2 o2 s hi, o6 i hi]
  rfl

/-- A key of one bit as arrays over all moduli. -/
def FitsHmr (k : Nat) (ms : List Nat) (key : HmrObj) : Prop :=
  ∃ n0 n1, 2 ≤ n0 ∧ 2 ≤ n1 ∧ Fits k ms n0 key.key0.data ∧ Fits k ms n1 key.key1.data

/-- The sum of two pairs as `brot_mux` forms it. -/
theorem RotObj.sum_phase {k : Nat} {ms : List Nat} (hM : Moduli k ms) {X Y : CtObj} (hX : Fits k ms 2 X.data) (hY : Fits k ms 2 Y.data)
    (s : Nat → Int) :
    ∃ T Z, map2 add64 X.data Y.data = .ok T ∧
      map2 (fun s m : Nat => (if m ≤ s then s - m else s) % 2 ^ 32) T (row 0 ms) = .ok Z ∧ Fits k ms 2 Z ∧
      ∀ i, i < ms.length → phase k ms s Z i = phase k ms s X.data i + phase k ms s Y.data i := by
  obtain ⟨T, t1, t2, t3⟩ := CkksRotObj.map2_same add64 (A := X.data) (B := Y.data) ⟨hX.e, hX.n, hX.l⟩ ⟨hY.e, hY.n, hY.l⟩
  obtain ⟨Z, z1, z2, z3⟩ := CkksRotObj.map2_row (fun s m : Nat => (if m ≤ s then s - m else s) % 2 ^ 32) (A := T) 0 ms t2 rfl
  have hval : ∀ a, a < 2 → ∀ i, i < ms.length → ∀ t, t < 2 ^ k →
      Z.get a t i < ms.getD i 0 ∧ ((Z.get a t i : Nat) : ZMod (ms.getD i 0)) = (X.data.get a t i : ZMod (ms.getD i 0)) + Y.data.get a t i := by
    intro a ha i hi t ht
    have ha' := hX.red a ha t ht i hi
    have hb' := hY.red a ha t ht i hi
    have hlt := (hM.at hi).2
    rw [z3 a t i ha ht hi, t3 a t i ha ht hi]
    generalize X.data.get a t i = x at *
    generalize Y.data.get a t i = y at *
    generalize ms.getD i 0 = m at *
    have e : add64 x y = x + y := by unfold add64; omega
    rw [e]
    split_ifs with hc
    · rw [Nat.mod_eq_of_lt (by omega), Nat.cast_sub hc, Nat.cast_add, ZMod.natCast_self, sub_zero]
      exact ⟨by omega, rfl⟩
    · rw [Nat.mod_eq_of_lt (by omega), Nat.cast_add]
      exact ⟨by omega, rfl⟩
  have hring : ∀ a, a < 2 → ∀ i, i < ms.length →
      ringOf k (ms.getD i 0) (limb Z a i) = ringOf k (ms.getD i 0) (limb X.data a i) + ringOf k (ms.getD i 0) (limb Y.data a i) := by
    intro a ha i hi
    have hpr := (hM.at hi).1
    rw [ringOf_eq_iff hpr]
    intro t ht
    have := (hval a ha i hi t ht).2
    rw [map_add, slot_ringOf hpr _ t ht, slot_ringOf hpr _ t ht]
    exact this
  refine ⟨T, Z, t1, z1, ⟨z2.1, z2.2.1, z2.2.2, fun a ha t ht i hi => (hval a ha i hi t ht).1⟩, ?_⟩
  intro i hi
  unfold phase
  rw [hring 0 (by norm_num) i hi, hring 1 (by norm_num) i hi]
  ring

/-- The loop. -/
theorem RotObj.mux_loop (kr kc : Nat) (q p : List Nat) (h : Basis kr kc q p) (K : CkksRotObj.Kernel)
    (s : Nat → Int) (Bs : Int) (stride : Nat) (B : Int)
    (hK : ∀ (sRot : Nat → Int) (beta j g : Nat) (hg2 : g % 2 = 1), g < 2 * 2 ^ (kr + kc) →
      (5 ^ j * g) % (2 * 2 ^ (kr + kc)) = 1 → IsSubst (2 ^ (kr + kc)) g s sRot →
      ∀ (e0 e1 : Nat → Int), (∀ t, t < 2 ^ (kr + kc) → |e0 t| ≤ B ∧ |e1 t| ≤ B) →
      ∀ (key : HmrObj), FitsHmr (kr + kc) (q ++ p) key → RotKey (kr + kc) q p s sRot beta e0 e1 (matHmr key) →
      ∀ (ct : CtObj) (els : Nat), 2 ≤ els → Fits (kr + kc) q els ct.data → ct.moduli = q →
      ∃ R, CkksRotObj.hmuxrot K ct key j p 0 = .ok R ∧ R.moduli = q ∧ Fits (kr + kc) q 2 R.data ∧
        ∃ η : Nat → Int, (∀ t, t < 2 ^ (kr + kc) → (p.prod : Int) * |η t| ≤ rotNoise (kr + kc) q p B Bs) ∧
          ∀ i, i < q.length → phase (kr + kc) q s R.data i =
            beta * sigma g hg2 (phase (kr + kc) q s ct.data i) + polyOf (kr + kc) (q.getD i 0) η) (bits : List Nat) :
    ∀ (k0 : Nat) (keys : List (HmrObj × HmrObj)),
      MuxKeys (kr + kc) q p s stride B k0 bits (keys.map (fun k => (matHmr k.1, matHmr k.2))) →
      (∀ k ∈ keys, FitsHmr (kr + kc) (q ++ p) k.1 ∧ FitsHmr (kr + kc) (q ++ p) k.2) →
    ∀ (ct : CtObj) (els : Nat), 2 ≤ els → Fits (kr + kc) q els ct.data → ct.moduli = q →
    ∃ R, CkksRotObj.muxLoop K p 0 stride k0 keys ct = .ok R ∧ R.moduli = q ∧ (keys = [] → R = ct) ∧
      (keys ≠ [] → Fits (kr + kc) q 2 R.data) ∧
      ∃ (G : Nat) (hG : G % 2 = 1) (η : Nat → Int), (5 ^ (rotAmount k0 bits * stride) * G) % (2 * 2 ^ (kr + kc)) = 1 ∧
        (∀ t, t < 2 ^ (kr + kc) → (p.prod : Int) * |η t| ≤ bits.length * (2 * rotNoise (kr + kc) q p B Bs)) ∧
        ∀ i, i < q.length →
          phase (kr + kc) q s R.data i = sigma G hG (phase (kr + kc) q s ct.data i) + polyOf (kr + kc) (q.getD i 0) η := by
  have h2N : 1 < 2 * 2 ^ (kr + kc) := by have := Nat.one_le_two_pow (n := kr + kc); omega
  have hs1 : ∀ i (a : Rq (kr + kc) (q.getD i 0)), i < q.length → sigma 1 rfl a = a := by
    intro i a hi
    obtain ⟨x, rfl, -⟩ := exists_poly (h.left.at hi).1 a
    exact sigma_isSubst _ _ 1 rfl x x (isSubst_one _ x)
  induction bits with
  | nil =>
    intro k0 keys hkeys hfit ct els h2 hct hmod
    obtain rfl : keys = [] := List.map_eq_nil_iff.1 hkeys
    refine ⟨ct, rfl, hmod, fun _ => rfl, fun hh => absurd rfl hh, 1, rfl, fun _ => 0, ?_, ?_, ?_⟩
    · simp only [rotAmount]
      rw [Nat.zero_mul, pow_zero, Nat.one_mul, Nat.mod_eq_of_lt h2N]
    · intro t _; simp
    · intro i hi
      rw [polyOf_zero, add_zero, hs1 i _ hi]
  | cons bit bits ih =>
    intro k0 keys hkeys hfit ct els h2 hct hmod
    obtain ⟨mk0, mk1, mrest, hmap, hbit, ⟨g, sRot, e0, e1, hg, hgj, hrot, hB, hkey⟩, ⟨e0', e1', hB', hkey'⟩, hrest⟩ := hkeys
    cases keys with
    | nil => simp at hmap
    | cons kk rest =>
    rw [List.map_cons, List.cons.injEq] at hmap
    obtain ⟨hk01, rfl⟩ := hmap
    obtain ⟨key0, key1⟩ := kk
    simp only [Prod.mk.injEq] at hk01
    obtain ⟨rfl, rfl⟩ := hk01
    obtain ⟨hf0, hf1⟩ := hfit (key0, key1) (by simp)
    have hg2 := odd_of_inv hgj
    obtain ⟨x, x1, x2, x3, ηx, x5, x6⟩ := hK sRot bit _ g hg2 hg hgj hrot e0 e1 hB key0 hf0 hkey ct els h2 hct hmod
    obtain ⟨y, y1, y2, y3, ηy, y5, y6⟩ := hK s (1 - bit) 0 1 rfl h2N (by rw [pow_zero, Nat.one_mul, Nat.mod_eq_of_lt h2N])
      (isSubst_one _ s) e0' e1' hB' key1 hf1 hkey' ct els h2 hct hmod
    obtain ⟨T, Z, z1, z2, z3, z4⟩ := sum_phase h.left x3 y3 s
    obtain ⟨R, c1, c2, c3, c4, G, hG, η, c5, c6, c7⟩ := ih (k0 + 1) rest hrest (fun k hk => hfit k (List.mem_cons_of_mem _ hk))
      ⟨Z, q⟩ 2 le_rfl z3 rfl
    obtain ⟨ηxy, hη⟩ : ∃ e : Nat → Int, e = fun t => ηx t + ηy t := ⟨_, rfl⟩
    obtain ⟨ηs, hηs⟩ := C42_subst_exists (kr + kc) G hG ηxy
    have hstep : CkksRotObj.muxStep K p 0 stride ct k0 (key0, key1) = .ok ⟨Z, q⟩ := by
      unfold CkksRotObj.muxStep
      simp only [bind, Except.bind, pure, Except.pure]
      rw [x1, y1]
      simp only
      rw [z1]
      simp only
      rw [x2, z2]
    obtain ⟨g0, hg0, hg02, hg0e⟩ : ∃ g0, g0 % 2 = 1 ∧ (5 ^ (bit * 2 ^ k0 * stride) * g0) % (2 * 2 ^ (kr + kc)) = 1 ∧
        ∀ (hg0 : g0 % 2 = 1) i, i < q.length → ∀ a : Rq (kr + kc) (q.getD i 0),
          (bit : Rq (kr + kc) (q.getD i 0)) * sigma g hg2 a + ((1 - bit : Nat) : Rq (kr + kc) (q.getD i 0)) * sigma 1 rfl a =
            sigma g0 hg0 a := by
      rcases Nat.le_one_iff_eq_zero_or_eq_one.1 hbit with rfl | rfl
      · refine ⟨1, rfl, ?_, ?_⟩
        · rw [Nat.zero_mul, Nat.zero_mul, pow_zero, Nat.one_mul, Nat.mod_eq_of_lt h2N]
        · intro _ i hi a
          simp
      · refine ⟨g, hg2, ?_, ?_⟩
        · rw [Nat.one_mul]; exact hgj
        · intro _ i hi a
          simp
    have hGg : (G * g0) % 2 = 1 := by rw [Nat.mul_mod, hG, hg0]
    refine ⟨R, ?_, c2, fun hh => by simp at hh, fun _ => ?_, G * g0, hGg, fun t => ηs t + η t, ?_, ?_, ?_⟩
    · unfold CkksRotObj.muxLoop
      rw [hstep]
      exact c1
    · by_cases hr : rest = []
      · rw [c3 hr]; exact z3
      · exact c4 hr
    · have e : 5 ^ (rotAmount k0 (bit :: bits) * stride) * (G * g0) =
          (5 ^ (rotAmount (k0 + 1) bits * stride) * G) * (5 ^ (bit * 2 ^ k0 * stride) * g0) := by
        simp only [rotAmount]
        rw [Nat.add_mul, pow_add]
        ring
      rw [e, Nat.mul_mod, c5, hg02, Nat.one_mul, Nat.mod_eq_of_lt h2N]
    · intro t ht
      have b1 := isSubst_abs hG hηs (c := (p.prod : Int)) (A := 2 * rotNoise (kr + kc) q p B Bs) (by
        intro t ht
        rw [hη]
        have a1 := x5 t ht
        have a2 := y5 t ht
        have a3 := mul_le_mul_of_nonneg_left (abs_add_le (ηx t) (ηy t)) (Int.natCast_nonneg p.prod)
        linarith) t ht
      have b2 := c6 t ht
      have b3 := mul_le_mul_of_nonneg_left (abs_add_le (ηs t) (η t)) (Int.natCast_nonneg p.prod)
      rw [List.length_cons, Nat.cast_add, Nat.cast_one]
      linarith
    · intro i hi
      rw [c7 i hi]
      simp only
      have f1 := x6 i hi
      have f2 := y6 i hi
      have f3 := hg0e hg0 i hi (phase (kr + kc) q s ct.data i)
      have f4 : phase (kr + kc) q s Z i = sigma g0 hg0 (phase (kr + kc) q s ct.data i) + polyOf (kr + kc) (q.getD i 0) ηxy := by
        rw [z4 i hi, hη, polyOf_add, ← f3]
        linear_combination f1 + f2
      rw [f4, map_add, sigma_comp _ _ _ _ hGg, sigma_isSubst _ _ G hG _ _ hηs, polyOf_add]
      ring

/-- C99: `brot_mux` on objects rotates what the ciphertext represents by the amount encoded in the encrypted bits, for every number
and choice of bits, up to the noise of C46. With no keys it returns its argument. -/
theorem C99_brot_mux (kr kc : Nat) (q p : List Nat) (h : Basis kr kc q p) (hc : Chain kr kc (q ++ p)) :
    ∃ K, CkksRotObj.precompute q p 1 (2 ^ kr) (2 ^ kc) p.length = .ok K ∧
    ∀ (s : Nat → Int) (Bs : Int), 0 ≤ Bs → (∀ t, t < 2 ^ (kr + kc) → |s t| ≤ Bs) →
    ∀ (B : Int), 0 ≤ B → ∀ (stride : Nat) (bits : List Nat) (keys : List (HmrObj × HmrObj)),
      MuxKeys (kr + kc) q p s stride B 0 bits (keys.map (fun k => (matHmr k.1, matHmr k.2))) →
      (∀ k ∈ keys, FitsHmr (kr + kc) (q ++ p) k.1 ∧ FitsHmr (kr + kc) (q ++ p) k.2) →
    ∀ (ct : CtObj) (els : Nat), 2 ≤ els → Fits (kr + kc) q els ct.data → ct.moduli = q →
    ∀ (m : Nat → Int), (∀ i, i < q.length → phase (kr + kc) q s ct.data i = polyOf (kr + kc) (q.getD i 0) m) →
    ∃ R, CkksRotObj.brotMux K ct keys p 0 stride = .ok R ∧ R.moduli = q ∧ (keys = [] → R = ct) ∧
      (keys ≠ [] → Fits (kr + kc) q 2 R.data) ∧
      ∃ (G : Nat) (mRot η : Nat → Int), (5 ^ (rotAmount 0 bits * stride) * G) % (2 * 2 ^ (kr + kc)) = 1 ∧
        IsSubst (2 ^ (kr + kc)) G m mRot ∧
        (∀ t, t < 2 ^ (kr + kc) → (p.prod : Int) * |η t| ≤ bits.length * (2 * rotNoise (kr + kc) q p B Bs)) ∧
        ∀ i, i < q.length → phase (kr + kc) q s R.data i = polyOf (kr + kc) (q.getD i 0) (fun t => mRot t + η t) := by
  obtain ⟨K, h1, h2⟩ := C99_hmuxrot_partial kr kc q p h hc
  refine ⟨K, h1, ?_⟩
  intro s Bs hBs0 hBs B hB0 stride bits keys hkeys hfit ct els hels hct hmod m hm
  obtain ⟨R, c1, c2, c3, c4, G, hG, η, c5, c6, c7⟩ := RotObj.mux_loop kr kc q p h K s Bs stride B
    (fun sRot beta j g hg2 hg hgj hrot e0 e1 hB key hf hkey ct els he hct hmod =>
      let ⟨n0, n1, a0, a1, f0, f1⟩ := hf
      h2 s sRot Bs hBs0 hBs beta j g hg2 hg hgj hrot e0 e1 B hB0 hB key n0 n1 a0 a1 f0 f1 hkey ct els he hct hmod)
    bits 0 keys hkeys hfit ct els hels hct hmod
  obtain ⟨mRot, hmr⟩ := C42_subst_exists (kr + kc) G hG m
  refine ⟨R, c1, c2, c3, c4, G, mRot, η, c5, hmr, c6, ?_⟩
  intro i hi
  rw [c7 i hi, hm i hi, sigma_isSubst _ _ G hG _ _ hmr, polyOf_add]

/-- C99: `brot_cm` on objects: if column key `l` represents `P` for `l = j` and zero otherwise, the result represents plaintext `j`, up
to the noise of C46. -/
theorem C99_brot_cm (kr kc : Nat) (q p : List Nat) (h : Basis kr kc q p) (hc : Chain kr kc (q ++ p)) :
    ∃ K, CkksRotObj.precompute q p 1 (2 ^ kr) (2 ^ kc) p.length = .ok K ∧
    ∀ (s : Nat → Int) (Bs : Int), 0 ≤ Bs → (∀ t, t < 2 ^ (kr + kc) → |s t| ≤ Bs) →
    ∀ (n j : Nat) (cms : Nat → CtObj) (pts : Nat → CkksObj.PtObj), j < n → (∀ m ∈ q ++ p, n < 2 ^ Nat.clog 2 m) →
      (∀ l, l < n → (cms l).moduli = q ++ p ∧ (pts l).moduli = q ++ p ∧ Fits (kr + kc) (q ++ p) 2 (cms l).data ∧
        Fits (kr + kc) (q ++ p) 1 (pts l).data) →
    ∀ (e x : Nat → Nat → Int) (Be Bx : Int), 0 ≤ Be → 0 ≤ Bx →
      (∀ l, l < n → ∀ t, t < 2 ^ (kr + kc) → |e l t| ≤ Be ∧ |x l t| ≤ Bx) →
      (∀ l, l < n → ∀ i, i < (q ++ p).length →
        ringOf (kr + kc) ((q ++ p).getD i 0) (limb (pts l).data 0 i) = polyOf (kr + kc) ((q ++ p).getD i 0) (x l) ∧
        phase (kr + kc) (q ++ p) s (cms l).data i =
        (if l = j then (p.prod : Rq (kr + kc) ((q ++ p).getD i 0)) else 0) + polyOf (kr + kc) ((q ++ p).getD i 0) (e l)) →
    ∃ R, CkksRotObj.brotCm K ((List.range n).map cms) ((List.range n).map pts) = .ok R ∧ R.moduli = q ∧ Fits (kr + kc) q 2 R.data ∧
      ∃ η : Nat → Int, (∀ t, t < 2 ^ (kr + kc) → (p.prod : Int) * |η t| ≤
          n * (2 ^ (kr + kc) * Be * Bx) + ((p.length * p.prod : Nat) : Int) * (1 + 2 ^ (kr + kc) * Bs)) ∧
        ∀ i, i < q.length → phase (kr + kc) q s R.data i = polyOf (kr + kc) (q.getD i 0) (fun t => x j t + η t) := by
  obtain ⟨K0, k1, hspec⟩ := C46_brot_cm kr kc q p h hc
  obtain ⟨K, k2, k3, k4⟩ := precompute_rep h.neQ h.neP h.small k1
  refine ⟨K, k2, ?_⟩
  intro s Bs hBs0 hBs n j cms pts hj hbig hwf e x Be Bx hBe hBx hB hrel
  have hcl : (((List.range n).map cms).map matCt).length = n := by simp
  have hpl : (((List.range n).map pts).map matPt).length = n := by simp
  have hcg : ∀ l, l < n → (((List.range n).map cms).map matCt).getD l (matCt (cms 0)) = matCt (cms l) := by
    intro l hl
    rw [List.getD_eq_getElem _ _ (by rw [hcl]; exact hl)]; simp
  have hpg : ∀ l, l < n → (((List.range n).map pts).map matPt).getD l (matPt (pts 0)) = matPt (pts l) := by
    intro l hl
    rw [List.getD_eq_getElem _ _ (by rw [hpl]; exact hl)]; simp
  have hsp := hspec s Bs hBs0 hBs (((List.range n).map cms).map matCt) (((List.range n).map pts).map matPt)
    (matCt (cms 0)) (matPt (pts 0)) j (by rw [hcl, hpl]) (by rw [hcl]; exact hj) (by rw [hcl]; exact hbig)
  rw [hcl] at hsp
  obtain ⟨out, o1, o2, o3, o4, η, o5, o6⟩ := hsp
    (by
      intro l hl
      rw [hcg l hl, hpg l hl]
      obtain ⟨w1, w2, w3, w4⟩ := hwf l hl
      exact ⟨w1, w2, fits_reduced w3 (by norm_num), fits_reduced w3 (by norm_num), fits_reduced w4 (by norm_num)⟩)
    e x Be Bx hBe hBx hB
    (by
      intro l hl i hi
      rw [hcg l hl, hpg l hl]
      exact hrel l hl i hi)
  obtain ⟨R, r1, r2⟩ := brotCm_rep k3 (cms := (List.range n).map cms) (pts := (List.range n).map pts) (n := 2 ^ (kr + kc))
    (by
      intro c hcm
      obtain ⟨l, hl, rfl⟩ := List.mem_map.1 hcm
      obtain ⟨w1, w2, w3, w4⟩ := hwf l (List.mem_range.1 hl)
      rw [k4]
      exact ⟨⟨w3.e, w3.n, w3.l⟩, w1⟩)
    (by
      intro c hcm
      obtain ⟨l, hl, rfl⟩ := List.mem_map.1 hcm
      obtain ⟨w1, w2, w3, w4⟩ := hwf l (List.mem_range.1 hl)
      rw [k4]
      exact ⟨⟨w4.e, w4.n, w4.l⟩, w2⟩) o1
  refine ⟨R, r1, by rw [r2.moduli, o2], rep_fits r2 o2 o3 o4, η, o5, ?_⟩
  intro i hi
  rw [rep_phase h.left r2 o2 s hi, o6 i hi]

theorem RotObj.loop_parts {S : KeySwitcher} {q p : List Nat} {bc : BcKernel} {ms : Option (List Nat)} {start : Nat}
    {ksk : CkksObj.EvkObj} {c1 : Arr Nat} : ∀ (n i : Nat) (acc out : Arr Nat × Arr Nat),
    switchLoop S q p bc ms start ksk c1 n i acc = .ok out → ∀ j, j < n → ∃ part, partArr S q p bc start (i + j) c1 = .ok part := by
  intro n
  induction n with
  | zero => intro i acc out _ j hj; omega
  | succ n ih =>
    intro i acc out h j hj
    unfold switchLoop at h
    obtain ⟨part, h1, h⟩ := CkksObj.bind_ok_iff.1 h
    obtain ⟨b, -, h⟩ := CkksObj.bind_ok_iff.1 h
    obtain ⟨a, -, h⟩ := CkksObj.bind_ok_iff.1 h
    cases j with
    | zero => exact ⟨part, h1⟩
    | succ j =>
      obtain ⟨x, hx⟩ := ih (i + 1) _ _ h j (by omega)
      exact ⟨x, by rw [← hx]; congr 1; omega⟩

theorem RotObj.loop_shape {S : KeySwitcher} {q p : List Nat} {bc : BcKernel} {ms : Option (List Nat)} {start : Nat}
    {ksk : CkksObj.EvkObj} {c1 : Arr Nat} : ∀ (n i : Nat) (acc out : Arr Nat × Arr Nat),
    switchLoop S q p bc ms start ksk c1 n i acc = .ok out → (1 < acc.1.l → out.1.l = acc.1.l) := by
  intro n
  induction n with
  | zero => intro i acc out h _; obtain rfl := Except.ok.inj h; rfl
  | succ n ih =>
    intro i acc out h hl
    unfold switchLoop at h
    obtain ⟨part, h1, h⟩ := CkksObj.bind_ok_iff.1 h
    obtain ⟨b, hb, h⟩ := CkksObj.bind_ok_iff.1 h
    obtain ⟨a, -, h⟩ := CkksObj.bind_ok_iff.1 h
    unfold accumulate at hb
    obtain ⟨k, -, hb⟩ := CkksObj.bind_ok_iff.1 hb
    obtain ⟨pr, -, hb⟩ := CkksObj.bind_ok_iff.1 hb
    obtain ⟨sm, hs, hb⟩ := CkksObj.bind_ok_iff.1 hb
    obtain ⟨⟨-, -, c3⟩, rfl⟩ := CkksObj.map2_ok_iff.1 hs
    obtain ⟨⟨-, -, d3⟩, rfl⟩ := CkksObj.map2_ok_iff.1 hb
    have e1 : CkksObj.bd acc.1.l pr.data.l = acc.1.l := by
      unfold CkksObj.bd; rw [if_neg (by omega)]
    have e2 : CkksObj.bd acc.1.l (q ++ p).length = acc.1.l := by
      unfold CkksObj.bd; rw [if_neg (by omega)]
    have := ih (i + 1) _ _ h (by simp only [e1, e2, row]; exact hl)
    rw [this]
    simp only [e1, e2, row]

/-- C99: what `key_switch` requires of a ciphertext: at least one element, the degree of the kernel, and one limb for each of its
moduli. Nothing else is compared. -/
theorem C99_key_switch_requires (S : KeySwitcher) (ct : CtObj) (ksk : CkksObj.EvkObj) (p : List Nat) (hp : p ≠ []) (hq : ct.moduli ≠ [])
    (bc : BcKernel) (ms : Option (List Nat)) (start : Nat) (R : CtObj)
    (h : CkksRotObj.keySwitch S ct ksk p bc ms start = .ok R) :
    0 < ct.data.e ∧ ct.data.n = S.r * S.c ∧ ct.data.l = ct.moduli.length ∧ S.tablesQ ≠ [] ∧ R.moduli = ct.moduli ++ p ∧ R.data.e = 2 := by
  unfold CkksRotObj.keySwitch at h
  obtain ⟨c0, h0, h⟩ := CkksObj.bind_ok_iff.1 h
  obtain ⟨c1, h1, h⟩ := CkksObj.bind_ok_iff.1 h
  obtain ⟨he, rfl⟩ := CkksObj.elem_ok_iff.1 h0
  obtain ⟨-, rfl⟩ := CkksObj.elem_ok_iff.1 h1
  simp only at h
  split at h
  · exact absurd h (by simp [throw, throwThe, MonadExceptOf.throw, bind, Except.bind])
  rename_i hd
  obtain ⟨-, -, h⟩ := CkksObj.bind_ok_iff.1 h
  obtain ⟨ks, hks, h⟩ := CkksObj.bind_ok_iff.1 h
  obtain ⟨sc, hsc, h⟩ := CkksObj.bind_ok_iff.1 h
  obtain ⟨sq, hsq, h⟩ := CkksObj.bind_ok_iff.1 h
  obtain ⟨sm, hsm, h⟩ := CkksObj.bind_ok_iff.1 h
  obtain ⟨c', hc', h⟩ := CkksObj.bind_ok_iff.1 h
  obtain ⟨dt, hdt, h⟩ := CkksObj.bind_ok_iff.1 h
  obtain rfl := Except.ok.inj h
  have hql := List.length_pos_iff.2 hq
  have hpl := List.length_pos_iff.2 hp
  have hdl : 0 < S.tablesQ.length := by omega
  -- a part
  have hpart : ∀ j, j < S.tablesQ.length → ct.data.n = S.r * S.c ∧
      min (min (j * ((ct.moduli.length + S.tablesQ.length - 1) / S.tablesQ.length) +
        (ct.moduli.length + S.tablesQ.length - 1) / S.tablesQ.length) ct.moduli.length) ct.data.l -
        j * ((ct.moduli.length + S.tablesQ.length - 1) / S.tablesQ.length) =
      min (j * ((ct.moduli.length + S.tablesQ.length - 1) / S.tablesQ.length) +
        (ct.moduli.length + S.tablesQ.length - 1) / S.tablesQ.length) ct.moduli.length -
        j * ((ct.moduli.length + S.tablesQ.length - 1) / S.tablesQ.length) := by
    intro j hj
    obtain ⟨part, hx⟩ := loop_parts _ 0 _ _ hks j hj
    unfold partArr at hx
    simp only [Nat.zero_add] at hx
    split at hx
    · exact absurd hx (by simp [throw, throwThe, MonadExceptOf.throw, bind, Except.bind])
    · rename_i hcond
      push_neg at hcond
      exact hcond
  have hlen := loop_shape _ 0 _ _ hks (by simp only [List.length_append]; omega)
  obtain ⟨⟨-, -, c3⟩, rfl⟩ := CkksObj.map2_ok_iff.1 hsc
  obtain ⟨⟨-, -, d3⟩, rfl⟩ := CkksObj.map2_ok_iff.1 hsq
  obtain ⟨⟨-, -, e3⟩, rfl⟩ := CkksObj.map2_ok_iff.1 hsm
  simp only [row, padLimbs, List.length_map] at c3 d3 e3
  rw [hlen] at e3
  simp only [List.length_append] at e3
  unfold stack2 at hdt
  split at hdt
  · simp at hdt
  obtain rfl := Except.ok.inj hdt
  refine ⟨by omega, (hpart 0 hdl).1, ?_, fun hh => hd (by simp [hh]), rfl, rfl⟩
  by_contra hne
  rcases c3 with c3 | c3 | c3
  · exact hne c3
  · -- one limb: the first part has one modulus, so there are further parts
    have hone : (ct.moduli.length + S.tablesQ.length - 1) / S.tablesQ.length = 1 := by
      have := (hpart 0 hdl).2
      have hn : 0 < (ct.moduli.length + S.tablesQ.length - 1) / S.tablesQ.length := Nat.div_pos (by omega) hdl
      simp only [Nat.zero_mul, Nat.zero_add, Nat.sub_zero] at this
      omega
    have hd2 : 1 < S.tablesQ.length := by
      by_contra hc
      have : S.tablesQ.length = 1 := by omega
      rw [this] at hone
      simp at hone
      omega
    have := (hpart 1 hd2).2
    rw [hone] at this
    omega
  · rw [c3] at e3
    have hb : CkksObj.bd (CkksObj.bd ct.data.l 1) 1 = ct.data.l := by rw [CkksObj.bd_one, CkksObj.bd_one]
    rw [hb] at e3
    unfold CkksObj.Compat at e3
    have := (hpart 0 hdl).2
    have hn : 0 < (ct.moduli.length + S.tablesQ.length - 1) / S.tablesQ.length := Nat.div_pos (by omega) hdl
    simp only [Nat.zero_mul, Nat.zero_add, Nat.sub_zero] at this
    omega

/-- C99: a `BlindRotation` whose constants were not computed raises in `hmuxrot` and `brot_cm`, and in `brot_mux` as soon as there is a key. -/
theorem C99_fresh (ct : CtObj) (key : HmrObj) (keys : List (HmrObj × HmrObj)) (hne : keys ≠ []) (cms : List CtObj) (pts : List CkksObj.PtObj)
    (j : Nat) (p : List Nat) (ci stride : Nat) :
    (∃ e, CkksRotObj.hmuxrot Kernel.fresh ct key j p ci = .error e) ∧ (∃ e, CkksRotObj.brotMux Kernel.fresh ct keys p ci stride = .error e) ∧
    (∃ e, CkksRotObj.brotCm Kernel.fresh cms pts = .error e) := by
  have hks : ∀ (c : CtObj) (k : CkksObj.EvkObj) (R : CtObj), CkksRotObj.keySwitch Kernel.fresh.switcher c k p Kernel.fresh.bc Kernel.fresh.mulModuli ci ≠ .ok R := by
    intro c k R h
    unfold CkksRotObj.keySwitch at h
    obtain ⟨c0, h0, h⟩ := CkksObj.bind_ok_iff.1 h
    obtain ⟨c1, h1, h⟩ := CkksObj.bind_ok_iff.1 h
    simp [Kernel.fresh, throw, throwThe, MonadExceptOf.throw, bind, Except.bind] at h
  have hm : ∀ (c : CtObj) (key : HmrObj) (j : Nat) (R : CtObj), CkksRotObj.hmuxrot Kernel.fresh c key j p ci ≠ .ok R := by
    intro c key j R h
    unfold CkksRotObj.hmuxrot at h
    obtain ⟨_, -, h⟩ := CkksObj.bind_ok_iff.1 h
    obtain ⟨_, -, h⟩ := CkksObj.bind_ok_iff.1 h
    obtain ⟨_, -, h⟩ := CkksObj.bind_ok_iff.1 h
    obtain ⟨_, -, h⟩ := CkksObj.bind_ok_iff.1 h
    obtain ⟨_, -, h⟩ := CkksObj.bind_ok_iff.1 h
    obtain ⟨_, h1, h⟩ := CkksObj.bind_ok_iff.1 h
    exact hks _ _ _ h1
  have err : ∀ (x : Except String CtObj), (∀ R, x ≠ .ok R) → ∃ e, x = .error e := by
    intro x hx
    cases x with
    | ok R => exact absurd rfl (hx R)
    | error e => exact ⟨e, rfl⟩
  refine ⟨err _ (hm ct key j), err _ ?_, err _ ?_⟩
  · intro R h
    cases keys with
    | nil => exact hne rfl
    | cons k rest =>
      unfold CkksRotObj.brotMux CkksRotObj.muxLoop at h
      obtain ⟨_, h1, -⟩ := CkksObj.bind_ok_iff.1 h
      unfold CkksRotObj.muxStep at h1
      obtain ⟨_, h2, -⟩ := CkksObj.bind_ok_iff.1 h1
      exact hm _ _ _ _ h2
  · intro R h
    unfold CkksRotObj.brotCm at h
    split at h
    · simp at h
    split at h
    · split at h
      · simp at h
      split at h
      · simp at h
      obtain ⟨_, h1, -⟩ := CkksObj.bind_ok_iff.1 h
      simp [CkksObj.mulBarrett, Kernel.fresh] at h1
    · simp at h

/-- C99: `key_switch` reads neither the moduli of the key nor elements after the second, and reads the only element of a ciphertext
of one element twice. -/
theorem C99_key_switch_ignores (S : KeySwitcher) (d : Arr Nat) (e : Nat) (he : 2 ≤ e) (ms mk mk' : List Nat) (a b : Arr Nat)
    (p : List Nat) (bc : BcKernel) (mul : Option (List Nat)) (start : Nat) :
    CkksRotObj.keySwitch S ⟨{ d with e := e }, ms⟩ ⟨a, b, mk⟩ p bc mul start =
      CkksRotObj.keySwitch S ⟨{ d with e := 2 }, ms⟩ ⟨a, b, mk'⟩ p bc mul start ∧
    CkksRotObj.keySwitch S ⟨{ d with e := 1 }, ms⟩ ⟨a, b, mk⟩ p bc mul start =
      CkksRotObj.keySwitch S ⟨⟨2, d.n, d.l, fun _ t i => d.get 0 t i⟩, ms⟩ ⟨a, b, mk⟩ p bc mul start := by
  have hloop : ∀ (c1 : Arr Nat) (n i : Nat) (acc : Arr Nat × Arr Nat),
      switchLoop S ms p bc mul start ⟨a, b, mk⟩ c1 n i acc = switchLoop S ms p bc mul start ⟨a, b, mk'⟩ c1 n i acc := by
    intro c1 n
    induction n with
    | zero => intro i acc; rfl
    | succ n ih =>
      intro i acc
      unfold switchLoop
      simp only [ih]
  constructor
  · unfold CkksRotObj.keySwitch CkksObj.elem
    simp only [if_neg (by omega : ¬ e = 0), if_neg (by omega : ¬ (2 : Nat) = 0), hloop, Nat.zero_min,
      show min 1 (e - 1) = 1 by omega, show min 1 (2 - 1) = 1 by omega]
  · unfold CkksRotObj.keySwitch CkksObj.elem
    simp only [if_neg (by omega : ¬ (1 : Nat) = 0), if_neg (by omega : ¬ (2 : Nat) = 0), Nat.zero_min,
      show min 1 (1 - 1) = 0 by omega, show min 1 (2 - 1) = 1 by omega]

namespace RotObj

/-- The rotation key of `unitRotKey` as an object: the key `P · 1` for the secret key 1, without errors and masks. -/
def unitKey : CtObj := ⟨⟨2, 2, 3, fun a _ i => if a = 0 then 12289 % [40961, 65537, 12289].getD i 1 else 0⟩, [40961, 65537, 12289]⟩

/-- The rotation by zero with that key. -/
def rotated (ct : CtObj) (key : CtObj) : Option (List Nat × List Nat) :=
  Obj.view (do
    let K ← CkksRotObj.precompute [40961, 65537] [12289] 1 1 2 1
    CkksRotObj.hmuxrot K ct ⟨key, key⟩ 0 [12289] 0)

end RotObj

set_option maxRecDepth 10000 in
/-- C99 does not hold in full: `hmuxrot` accepts a ciphertext over other moduli than those of the kernel, if there are as many. The
key is one for the bit 1 and the rotation by zero (`C46_dnum_negation`): 50000 over `[40961, 65537]` stays 50000. Over the moduli in the other
order the result, declared over the moduli of the kernel, is another number, and there is no exception. A key with one element is refused. -/
theorem C99_negation :
    rotated (constObj [40961, 65537] 50000) unitKey = some ([40961, 65537], [50000 % 40961, 50000 % 65537]) ∧
    rotated (constObj [65537, 40961] 50000) unitKey = some ([40961, 65537], [9039, 49369]) ∧
    49369 ≠ 50000 % 65537 ∧
    rotated (constObj [40961, 65537] 50000) ⟨{ unitKey.data with e := 1 }, unitKey.moduli⟩ = none := by
  decide +kernel

/-- The hypotheses of `C99_key_switch_partial` are met by generated keys for a non-zero secret and a ciphertext with a third element;
with it those of `C99_key_switch_requires` and `C99_key_switch_ignores`. -/
example : ∃ (S : KeySwitcher) (ct : CtObj) (evk : CkksObj.EvkObj) (R : CtObj), CkksRotObj.keySwitch S ct evk [65537]
    [(partModuli [12289, 40961] 2 0, otherModuli [12289, 40961] [65537] 2 0),
      (partModuli [12289, 40961] 2 1, otherModuli [12289, 40961] [65537] 2 1)] (some ([12289, 40961] ++ [65537])) 0 = .ok R ∧
    ct.data.e = 3 ∧ ct.data.get 1 1 1 = 1001 := by
  obtain ⟨s, sk, evk, src, e, A, C, h1, -, h2, h3, h4, h5, h6, h7, h8, h9, h10, h11, h12, h13⟩ := setting
  obtain ⟨S, R, -, r1, -⟩ := C99_key_switch_partial 0 1 [12289, 40961] [65537] basis_example 2 (by decide) (by decide)
    [(partModuli [12289, 40961] 2 0, otherModuli [12289, 40961] [65537] 2 0),
      (partModuli [12289, 40961] 2 1, otherModuli [12289, 40961] [65537] 2 1)] 0
    (by intro part hp; obtain rfl | rfl : part = 0 ∨ part = 1 := by omega
        · rfl
        · rfl) A 3 (by decide) h9 h11 s src e 3 (by decide) h5 evk h6 h7 h8
  exact ⟨S, A, evk, R, r1, h9.e, h12⟩

/-- An element pair as an object. -/
def RotObj.arrOf (deg len : Nat) (c : Ciphertext) : CtObj :=
  ⟨⟨2, deg, len, fun a t i => if a = 0 then c.c0 i t else c.c1 i t⟩, c.moduli⟩

/-- C99: the keys of C46, such as those of `gen_mux_rotation_key` (`C46_generated_mux_keys`), as arrays meet the requirements of
`C99_brot_mux`. -/
theorem C99_key_arrays (k : Nat) (q p : List Nat) (s : Nat → Int) (stride : Nat) (B : Int) (bits : List Nat) :
    ∀ (k0 : Nat) (keys : List (HMuxRotKey × HMuxRotKey)), MuxKeys k q p s stride B k0 bits keys →
    ∃ objs : List (HmrObj × HmrObj), objs.map (fun x => (matHmr x.1, matHmr x.2)) = keys ∧
      ∀ x ∈ objs, FitsHmr k (q ++ p) x.1 ∧ FitsHmr k (q ++ p) x.2 := by
  have hf : ∀ c : Ciphertext, Reduced k (q ++ p) c.c0 → Reduced k (q ++ p) c.c1 →
      Fits k (q ++ p) 2 (arrOf (2 ^ k) (q ++ p).length c).data := by
    intro c h0 h1
    refine ⟨rfl, rfl, rfl, ?_⟩
    intro a ha t ht i hi
    simp only [arrOf]
    split
    · exact h0 i hi t ht
    · exact h1 i hi t ht
  have hk : ∀ (key : HMuxRotKey) {sRot : Nat → Int} {beta : Nat} {e0 e1 : Nat → Int}, RotKey k q p s sRot beta e0 e1 key →
      FitsHmr k (q ++ p) ⟨arrOf (2 ^ k) (q ++ p).length key.key0, arrOf (2 ^ k) (q ++ p).length key.key1⟩ := fun key _ _ _ _ h =>
    ⟨2, 2, le_rfl, le_rfl, hf _ h.red00 h.red01, hf _ h.red10 h.red11⟩
  induction bits with
  | nil => intro k0 keys h; obtain rfl : keys = [] := h; exact ⟨[], rfl, by simp⟩
  | cons bit bits ih =>
    intro k0 keys h
    obtain ⟨key0, key1, rest, rfl, -, ⟨_, _, _, _, -, -, -, -, h0⟩, ⟨_, _, -, h1⟩, hrest⟩ := h
    obtain ⟨objs, o1, o2⟩ := ih _ _ hrest
    refine ⟨(⟨arrOf (2 ^ k) (q ++ p).length key0.key0, arrOf (2 ^ k) (q ++ p).length key0.key1⟩,
      ⟨arrOf (2 ^ k) (q ++ p).length key1.key0, arrOf (2 ^ k) (q ++ p).length key1.key1⟩) :: objs, ?_, ?_⟩
    · rw [List.map_cons, o1]; rfl
    · intro x hx
      rcases List.mem_cons.1 hx with rfl | hx
      · exact ⟨hk key0 h0, hk key1 h1⟩
      · exact o2 x hx

/-- Generated keys for the bits 1, 0, 1 as objects and a non-zero ciphertext meet the hypotheses of `C99_brot_mux`, and each of the
keys those of `C99_hmuxrot_partial`; the call succeeds. -/
example : ∃ (s : Nat → Int) (K : CkksRotObj.Kernel) (keys : List (HmrObj × HmrObj)) (R : CtObj), s 1 = 1 ∧ keys.length = 3 ∧
    CkksRotObj.brotMux K (constObj [40961, 65537] 50000) keys [12289] 0 3 = .ok R ∧ R.moduli = [40961, 65537] := by
  obtain ⟨hb, hc⟩ := basis_rotation
  obtain ⟨pk, sk, -, h2⟩ := C40_keygen_holds 1 [40961, 65537] hb.left (fun t => if t = 1 then 1 else 0) (fun _ => 1) (fun _ _ => 7)
  obtain ⟨keys, -, h3⟩ := C46_generated_mux_keys 1 [40961, 65537] [12289] hb.left hb.right (by decide)
    (fun t => if t = 1 then 1 else 0) (fun t => by by_cases h : t = 1 <;> simp [h]) sk h2 (by decide) 3 [1, 0, 1] (by decide)
    (fun a b => (fun _ _ => a + b, fun _ => 2)) 2 (fun _ _ _ => by norm_num)
  obtain ⟨objs, rfl, o2⟩ := C99_key_arrays 1 _ _ _ _ _ _ _ _ h3
  obtain ⟨K, -, hK⟩ := C99_brot_mux 0 1 [40961, 65537] [12289] hb hc
  have hfit : Fits (0 + 1) [40961, 65537] 2 (constObj [40961, 65537] 50000).data := ⟨rfl, rfl, rfl, by decide⟩
  obtain ⟨m, hm⟩ : ∃ m : Nat → Int, ∀ i, i < [40961, 65537].length →
      phase (0 + 1) [40961, 65537] (fun t => if t = 1 then 1 else 0) (constObj [40961, 65537] 50000).data i =
        polyOf (0 + 1) ([40961, 65537].getD i 0) m := by
    refine ⟨fun t => 50000 * (if t = 0 then 1 else 0), ?_⟩
    intro i hi
    have hp := (hb.left.at hi).1
    rw [polyOf_smul, polyOf_one, mul_one]
    have e0 : ringOf (0 + 1) ([40961, 65537].getD i 0) (limb (constObj [40961, 65537] 50000).data 1 i) = 0 := ringOf_zero hp
    unfold phase
    rw [e0, zero_mul, add_zero]
    exact (ringOf_mod hp (fun _ => 50000)).trans ((ringOf_const hp 50000).trans (by push_cast; rfl))
  obtain ⟨R, r1, r2, -⟩ := hK (fun t => if t = 1 then 1 else 0) 1 (by decide) (by intro t _; by_cases h : t = 1 <;> simp [h]) 2 (by decide) 3
    [1, 0, 1] objs h3 o2 (constObj [40961, 65537] 50000) 2 le_rfl hfit rfl m hm
  refine ⟨fun t => if t = 1 then 1 else 0, K, objs, R, rfl, ?_, r1, r2⟩
  obtain ⟨_, _, r1, e1, -, -, -, _, _, r2, rfl, -, -, -, _, _, r3, rfl, -, -, -, rfl⟩ := h3
  have := congrArg List.length e1
  simpa using this

/-- Two column keys without errors, for the second column, and two plaintexts meet the hypotheses of `C99_brot_cm` and `C99_brot_cm_requires`. -/
example : ∃ K R, CkksRotObj.brotCm K [constObj [40961, 65537, 12289] 0, unitKey]
    [constPt [40961, 65537, 12289] 3, constPt [40961, 65537, 12289] 7] = .ok R ∧ R.moduli = [40961, 65537] := by
  obtain ⟨hb, hc⟩ := basis_rotation
  obtain ⟨K, -, hK⟩ := C99_brot_cm 0 1 [40961, 65537] [12289] hb hc
  have hconst : ∀ i, i < 3 → ∀ v : Nat, ringOf (0 + 1) (([40961, 65537] ++ [12289] : List Nat).getD i 0)
      (fun _ => v % ([40961, 65537] ++ [12289] : List Nat).getD i 0) = ((v : Nat) : Rq (0 + 1) (([40961, 65537] ++ [12289] : List Nat).getD i 0)) := by
    intro i hi v
    have hp := (hb.moduli.at (i := i) hi).1
    exact (ringOf_mod hp (fun _ => v)).trans (ringOf_const hp v)
  have hfit : ∀ (v els : Nat) (f : Nat → Nat → Nat → Nat), (∀ a t i, f a t i = v % ([40961, 65537] ++ [12289] : List Nat).getD i 0 ∨ f a t i = 0) →
      Fits (0 + 1) ([40961, 65537] ++ [12289]) els ⟨els, 2, 3, f⟩ := by
    intro v els f hf
    refine ⟨rfl, rfl, rfl, ?_⟩
    intro a _ t _ i hi
    have hp := (hb.moduli.at (i := i) hi).1.prime.pos
    rcases hf a t i with h | h <;> simp only [h]
    · exact Nat.mod_lt _ hp
    · exact hp
  obtain ⟨R, r1, r2, -⟩ := hK (fun t => if t = 0 then 1 else 0) 1 (by decide) (by intro t _; by_cases h : t = 0 <;> simp [h]) 2 1
    (fun l => if l = 0 then constObj [40961, 65537, 12289] 0 else unitKey)
    (fun l => if l = 0 then constPt [40961, 65537, 12289] 3 else constPt [40961, 65537, 12289] 7) (by decide)
    (by decide +kernel)
    (by
      intro l hl
      obtain rfl | rfl : l = 0 ∨ l = 1 := by omega
      · refine ⟨rfl, rfl, hfit 0 2 _ ?_, hfit 3 1 _ ?_⟩
        · intro a t i; by_cases h : a = 0
          · exact Or.inl (by simp [h])
          · exact Or.inr (by simp [h])
        · intro a t i; exact Or.inl rfl
      · refine ⟨rfl, rfl, ⟨rfl, rfl, rfl, by decide⟩, hfit 7 1 _ ?_⟩
        intro a t i; exact Or.inl rfl)
    (fun _ _ => 0) (fun l t => (if l = 0 then 3 else 7) * (if t = 0 then 1 else 0)) 0 7 le_rfl (by decide)
    (by
      intro l _ t _
      by_cases h1 : l = 0 <;> by_cases h2 : t = 0 <;> simp [h1, h2])
    (by
      intro l hl i hi
      have hp := (hb.moduli.at (i := i) hi).1
      have hz : ringOf (0 + 1) (([40961, 65537] ++ [12289] : List Nat).getD i 0) (fun _ => 0) = 0 := ringOf_zero hp
      rw [polyOf_smul, polyOf_one, mul_one, polyOf_zero, add_zero]
      obtain rfl | rfl : l = 0 ∨ l = 1 := by omega
      · refine ⟨(hconst i hi 3).trans (by push_cast; rfl), ?_⟩
        unfold phase
        rw [polyOf_one, mul_one]
        have e0 : ringOf (0 + 1) (([40961, 65537] ++ [12289] : List Nat).getD i 0) (limb (constObj [40961, 65537, 12289] 0).data 0 i) = 0 :=
          (hconst i hi 0).trans (by simp)
        have e1 : ringOf (0 + 1) (([40961, 65537] ++ [12289] : List Nat).getD i 0) (limb (constObj [40961, 65537, 12289] 0).data 1 i) = 0 := hz
        simp only [if_true]
        rw [e0, e1]
        simp
      · refine ⟨(hconst i hi 7).trans (by push_cast; rfl), ?_⟩
        unfold phase
        rw [polyOf_one, mul_one]
        have e0 : ringOf (0 + 1) (([40961, 65537] ++ [12289] : List Nat).getD i 0) (limb unitKey.data 0 i) =
            ((12289 : Nat) : Rq (0 + 1) (([40961, 65537] ++ [12289] : List Nat).getD i 0)) := by
          have : limb unitKey.data 0 i = fun _ => 12289 % ([40961, 65537] ++ [12289] : List Nat).getD i 0 := by
            obtain rfl | rfl | rfl : i = 0 ∨ i = 1 ∨ i = 2 := by simp at hi; omega
            · rfl
            · rfl
            · rfl
          rw [this]
          exact hconst i hi 12289
        have e1 : ringOf (0 + 1) (([40961, 65537] ++ [12289] : List Nat).getD i 0) (limb unitKey.data 1 i) = 0 := hz
        simp only [if_true, if_neg (by decide : ¬ (1 : Nat) = 0)]
        rw [e0, e1, add_zero]
        simp)
  exact ⟨K, R, r1, r2⟩

/-- A conjugation key for a non-zero secret and a ciphertext of a non-zero number meet the hypotheses of `C99_conjugate`. -/
example : ∃ (s : Nat → Int) (S : KeySwitcher) (R0 : RescaleArr.Kernel) (key : CkksObj.EvkObj) (out : CtObj), s 1 = 1 ∧
    CkksRotObj.conjugate S (constObj [40961, 65537] 50000) key [12289] (CkksRotate.bcPairs [40961, 65537] [12289] 2)
      (some ([40961, 65537] ++ [12289])) (some R0) 0 = .ok out ∧ out.moduli = [40961, 65537] := by
  obtain ⟨hb, hc⟩ := basis_rotation
  obtain ⟨S, R0, -, -, hS⟩ := C99_conjugate 0 1 [40961, 65537] [12289] hb hc 2 (by decide) (by decide)
  obtain ⟨pk, sk, -, h2⟩ := C40_keygen_holds 1 [40961, 65537] hb.left (fun t => if t = 1 then 1 else 0) (fun _ => 1) (fun _ _ => 7)
  obtain ⟨-, src, -, h3⟩ := C40_keygen_holds 1 [40961, 65537] hb.left (fun t => if t = 1 then -1 else 0) (fun _ => 1) (fun _ _ => 7)
  obtain ⟨keys, -, g⟩ := C45_generated_keys 1 [40961, 65537] [12289] hb.left hb.right (by decide) 2 (by decide)
    (fun t => if t = 1 then 1 else 0) (fun t => by by_cases h : t = 1 <;> simp [h]) sk h2 src (by rw [h3.moduli]) h3.reduced
    (fun part => (fun i t => part + i + t, fun _ => 3))
  obtain ⟨k1, k2, k3⟩ := C89_key_arrays 1 [40961, 65537] [12289] hb.moduli 2 _ src.data _ keys g
    ⟨⟨2, 2 ^ 1, 3, fun part t i => keys.a.getD part (fun _ _ => 0) i t⟩,
      ⟨2, 2 ^ 1, 3, fun part t i => keys.b.getD part (fun _ _ => 0) i t⟩, []⟩ rfl rfl
  obtain ⟨out, o1, o2, -⟩ := hS (CkksRotate.bcPairs [40961, 65537] [12289] 2) 0
    (by intro part hp; obtain rfl | rfl : part = 0 ∨ part = 1 := by omega
        · rfl
        · rfl)
    (fun t => if t = 1 then 1 else 0) (fun t => if t = 1 then -1 else 0) 1 (by decide) (by intro t _; by_cases h : t = 1 <;> simp [h]) rfl
    (by intro j h1 h2; obtain rfl : j = 1 := by omega
        rfl) src.data (fun i hi => h3.ring i hi) _ 3 (by decide) (by intro part _ t _; norm_num) _ k1 k2 k3
    (constObj [40961, 65537] 50000) 2 le_rfl ⟨rfl, rfl, rfl, by decide⟩ rfl
    (fun t => 50000 * (if t = 0 then 1 else 0)) (fun t => 50000 * (if t = 0 then 1 else 0)) rfl
    (by intro j h1 h2; obtain rfl : j = 1 := by omega
        rfl)
    (by
      intro i hi
      have hp := (hb.left.at hi).1
      rw [polyOf_smul, polyOf_one, mul_one]
      have e0 : ringOf (0 + 1) ([40961, 65537].getD i 0) (limb (constObj [40961, 65537] 50000).data 1 i) = 0 := ringOf_zero hp
      unfold phase
      rw [e0, zero_mul, add_zero]
      exact (ringOf_mod hp (fun _ => 50000)).trans ((ringOf_const hp 50000).trans (by push_cast; rfl)))
  exact ⟨_, S, R0, _, out, rfl, o1, o2⟩

/-- C99: what `brot_cm` requires: as many plaintexts as ciphertexts, at least one, all ciphertexts of one shape and all
plaintexts of one shape. -/
theorem C99_brot_cm_requires (K : CkksRotObj.Kernel) (cms : List CtObj) (pts : List CkksObj.PtObj) (R : CtObj)
    (h : brotCm K cms pts = .ok R) :
    cms.length = pts.length ∧ cms ≠ [] ∧
    (∀ c ∈ cms, ∀ d ∈ cms, c.data.e = d.data.e ∧ c.data.n = d.data.n ∧ c.data.l = d.data.l) ∧
    (∀ c ∈ pts, ∀ d ∈ pts, c.data.e = d.data.e ∧ c.data.n = d.data.n ∧ c.data.l = d.data.l) := by
  unfold brotCm at h
  split at h
  · cases h
  rename_i hl
  split at h
  · rename_i ct0 x pt0 y
    split at h
    · cases h
    split at h
    · cases h
    rename_i hs
    rw [not_not] at hs
    obtain ⟨h1, h2⟩ := hs
    rw [List.all_eq_true] at h1 h2
    have f1 : ∀ c ∈ ct0 :: x, c.data.e = ct0.data.e ∧ c.data.n = ct0.data.n ∧ c.data.l = ct0.data.l := by
      intro c hc
      have := h1 c hc
      simpa [sameShape, and_assoc] using this
    have f2 : ∀ c ∈ pt0 :: y, c.data.e = pt0.data.e ∧ c.data.n = pt0.data.n ∧ c.data.l = pt0.data.l := by
      intro c hc
      have := h2 c hc
      simpa [sameShape, and_assoc] using this
    refine ⟨not_not.1 hl, by simp, fun c hc d hd => ?_, fun c hc d hd => ?_⟩
    · obtain ⟨a1, a2, a3⟩ := f1 c hc
      obtain ⟨b1, b2, b3⟩ := f1 d hd
      exact ⟨a1.trans b1.symm, a2.trans b2.symm, a3.trans b3.symm⟩
    · obtain ⟨a1, a2, a3⟩ := f2 c hc
      obtain ⟨b1, b2, b3⟩ := f2 d hd
      exact ⟨a1.trans b1.symm, a2.trans b2.symm, a3.trans b3.symm⟩
  · cases h

end Verif.Props
