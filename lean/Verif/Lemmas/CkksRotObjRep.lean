import Verif.Lemmas.CkksRotObj
import Verif.Props.RescaleArr

/-!
# Rotation and conjugation on objects are the functions on elements, when the shapes fit
-/

namespace Verif.CkksRotObj
open Verif.Barrett Verif.CkksKeys Verif.CkksMul Verif.RescaleArr Verif.CkksObj Verif.Props.RescaleObj

theorem loop_moduli (r c : Nat) (tables : List NttBat.Tables) : ∀ (consts : List (List Nat × List Nat)) (ms : List Nat)
    (data : Nat → Nat → Nat), (Rescale.loop r c tables consts ms data).1 = ms.take (ms.length - consts.length) := by
  intro consts
  induction consts with
  | nil => intro ms data; simp [Rescale.loop]
  | cons gb consts ih =>
    intro ms data
    rw [Rescale.loop, ih, List.length_dropLast, List.dropLast_eq_take, List.take_take, List.length_cons]
    congr 1
    omega

/-- Rescaling an object that holds a pair of elements. -/
theorem rescale_rep {ms : List Nat} {n r c : Nat} {K : Rescale.Kernel} {K' : RescaleArr.Kernel}
    (hK : Rescale.precompute ms n r c = .ok K) (hK' : RescaleArr.precompute ms n r c = .ok K')
    (hm : ∀ m ∈ ms, 0 < m ∧ m < 2 ^ 32) {deg : Nat} {R : CtObj} {ct out : Ciphertext} (hrep : Rep deg R ct)
    (h : CkksRotate.rescaleCt K deg ct = .ok out) :
    ∃ R', RescaleArr.rescale (some K') R = .ok R' ∧ Rep deg R' out := by
  obtain ⟨K2, k1, k2, k3, k4, k5, k6, k7, k8, k9, k10⟩ := (precompute_spec ms n r c).2 K hK
  obtain rfl : K2 = K' := Except.ok.inj (k1.symm.trans hK')
  obtain ⟨r0, e0, h⟩ := bind_ok_iff.1 h
  obtain ⟨r1, e1, h⟩ := bind_ok_iff.1 h
  obtain rfl := Except.ok.inj h
  unfold Rescale.rescale at e0 e1
  simp only at e0 e1
  by_cases hd : deg ≠ K.r * K.c
  · rw [if_pos hd] at e0; simp at e0
  by_cases hl : ct.moduli.length ≠ K.moduli.length
  · rw [if_neg hd, if_pos hl] at e0; simp at e0
  rw [if_neg hd, if_neg hl] at e0 e1
  obtain rfl := Except.ok.inj e0
  obtain rfl := Except.ok.inj e1
  rw [k8] at hl
  rw [k9, k10] at hd
  have hd' : deg = r * c := not_not.1 hd
  have hl' : ct.moduli.length = ms.length := not_not.1 hl
  obtain ⟨o, o1, o2, o3, o4, o5⟩ := loopArr_spec r c K.tables K2.levels K.consts ms k7 hm R.data
    (by rw [hrep.n, hd']) (by rw [hrep.l, hl'])
  have hlen := k7.length
  have hne : K2.levels ≠ [] := by intro hc; rw [hc] at k5; simp at k5; omega
  have hlt := hlen.2 hne
  have hmod : (Rescale.loop K.r K.c K.tables K.consts K.moduli ct.c0).1 = ms.take (ms.length - K2.levels.length) := by
    rw [loop_moduli, k8, hlen.1]
  refine ⟨⟨o, ms.take (ms.length - K2.levels.length)⟩, ?_, ?_⟩
  · unfold RescaleArr.rescale
    simp only [k2, k3, k4]
    rw [if_neg (by rw [hrep.n, hd']; simp), if_neg (by rw [hrep.e]; norm_num), o1]
    rfl
  · have hol : o.l = (Rescale.loop K.r K.c K.tables K.consts K.moduli ct.c0).1.length := by
      rw [hmod, o4, List.length_take]; omega
    refine ⟨by rw [o2, hrep.e], by rw [o3, hrep.n], hol, hmod.symm, ?_, ?_⟩
    · intro t i ht hi
      have hi' : i < ms.length - K.consts.length := by
        simp only [hmod, List.length_take] at hi
        omega
      rw [o5 0 t i (by rw [hrep.e]; norm_num) (by rw [hrep.n]; exact ht) (by rw [hol]; exact hi), k8, k9, k10]
      apply loop_ext K.tables K.consts ms (by omega) _ i t hi' (by omega)
      intro j u hj hu
      exact hrep.c0 u j (by omega) (by omega)
    · intro t i ht hi
      have hi' : i < ms.length - K.consts.length := by
        simp only [hmod, List.length_take] at hi
        omega
      rw [o5 1 t i (by rw [hrep.e]; norm_num) (by rw [hrep.n]; exact ht) (by rw [hol]; exact hi), k8, k9, k10]
      apply loop_ext K.tables K.consts ms (by omega) _ i t hi' (by omega)
      intro j u hj hu
      exact hrep.c1 u j (by omega) (by omega)

/-- Two kernels for the same moduli, one for objects and one for elements. -/
structure RepKernel (K' : Kernel) (K : CkksRotate.Kernel) : Prop where
  switcher : K'.switcher = K.switcher
  bc : K'.bc = K.bc
  mulModuli : K'.mulModuli = some K.mulModuli
  rescaler : ∃ n r c R', (∀ m ∈ K.mulModuli, 0 < m ∧ m < 2 ^ 32) ∧ Rescale.precompute K.mulModuli n r c = .ok K.rescaler ∧
    RescaleArr.precompute K.mulModuli n r c = .ok R' ∧ K'.rescaler = some R'

theorem precompute_rep {q p : List Nat} {dnum r c n : Nat} {K : CkksRotate.Kernel} (hq : q ≠ []) (hp : p ≠ [])
    (hm : ∀ m ∈ q ++ p, 0 < m ∧ m < 2 ^ 32) (h : CkksRotate.precompute q p dnum r c n = .ok K) :
    ∃ K', precompute q p dnum r c n = .ok K' ∧ RepKernel K' K ∧ K.mulModuli = q ++ p := by
  obtain ⟨S, s1, h⟩ := bind_ok_iff.1 h
  obtain ⟨R, r1, h⟩ := bind_ok_iff.1 h
  obtain rfl := Except.ok.inj h
  obtain ⟨R', r2, -⟩ := (precompute_spec (q ++ p) n r c).2 R r1
  refine ⟨⟨S, CkksRotate.bcPairs q p dnum, some (q ++ p), some R'⟩, ?_, ⟨rfl, rfl, rfl, n, r, c, R', hm, r1, r2, rfl⟩, rfl⟩
  unfold precompute
  rw [if_neg (by simp [hq, hp])]
  simp only [bind, Except.bind, pure, Except.pure]
  rw [s1]
  simp only
  rw [r2]

/-- A key for the conditional rotation as functions. -/
def matHmr (key : HmrObj) : HMuxRotKey := ⟨matCt key.key0, matCt key.key1⟩

/-- The shape of a ciphertext that serves as a key. -/
structure KeyShape (deg len : Nat) (c : CtObj) : Prop where
  e : 2 ≤ c.data.e
  n : c.data.n = deg
  l : c.data.l = len

theorem repKey_slice {deg len : Nat} {c : CtObj} (h : KeyShape deg len c) :
    RepKey deg len 1 (asKeys c).a [(matCt c).c1] ∧ RepKey deg len 1 (asKeys c).b [(matCt c).c0] := by
  have he := h.e
  refine ⟨⟨?_, h.n, h.l, by simp, ?_⟩, ⟨?_, h.n, h.l, by simp, ?_⟩⟩
  · simp only [asKeys, sliceElems]; omega
  · intro j t i hj ht hi
    obtain rfl : j = 0 := by omega
    rfl
  · simp only [asKeys, sliceElems]; omega
  · intro j t i hj ht hi
    obtain rfl : j = 0 := by omega
    simp [asKeys, sliceElems, matCt]

theorem keySwitch_moduli {S : KeySwitcher} {ct : Ciphertext} {keys : EvalKeys} {p : List Nat} {bc : BcKernel} {ms : Option (List Nat)}
    {start : Nat} {out : Ciphertext} (h : CkksMul.keySwitch S ct keys p bc ms start = .ok out) : out.moduli = ct.moduli ++ p := by
  unfold CkksMul.keySwitch keySwitchParts at h
  simp only at h
  split at h
  · simp [bind, Except.bind, throw, throwThe, MonadExceptOf.throw] at h
  · split at h
    · simp [bind, Except.bind, throw, throwThe, MonadExceptOf.throw] at h
    · obtain ⟨_, -, h⟩ := bind_ok_iff.1 h
      obtain rfl := Except.ok.inj h
      rfl

theorem hmuxrot_rep {K' : Kernel} {K : CkksRotate.Kernel} (hK : RepKernel K' K) (hd : K.switcher.tablesQ.length = 1)
    {ct : CtObj} {key : HmrObj} {j : Nat} {p : List Nat} {ci : Nat} {out : Ciphertext}
    (hms : K.mulModuli.length = (ct.moduli ++ p).length) (he : 2 ≤ ct.data.e) (hn : ct.data.n = K.switcher.r * K.switcher.c)
    (hl : ct.data.l = ct.moduli.length) (h0 : KeyShape ct.data.n (ct.moduli ++ p).length key.key0)
    (h1 : KeyShape ct.data.n (ct.moduli ++ p).length key.key1)
    (h : CkksRotate.hmuxrot K ct.data.n (matCt ct) (matHmr key) j p ci = .ok out) :
    ∃ R, hmuxrot K' ct key j p ci = .ok R ∧ Rep ct.data.n R out := by
  obtain ⟨g, g1, h⟩ := bind_ok_iff.1 h
  obtain ⟨al, a1, h⟩ := bind_ok_iff.1 h
  obtain ⟨be, b1, h⟩ := bind_ok_iff.1 h
  obtain ⟨x, x1, h⟩ := bind_ok_iff.1 h
  obtain ⟨y, y1, h⟩ := bind_ok_iff.1 h
  have hxm : x.moduli = ct.moduli ++ p ∧ y.moduli = ct.moduli ++ p := ⟨keySwitch_moduli x1, keySwitch_moduli y1⟩
  obtain ⟨n, r, c, R', hm, r1, r2, r3⟩ := hK.rescaler
  obtain ⟨X, X1, X2⟩ := keySwitch_rep (S := K.switcher) (ct := ⟨underZero ⟨1, ct.data.n, ct.data.l, fun _ t i => al i t⟩, ct.moduli⟩)
    (ksk := asKeys key.key0) (p := p) (bc := K.bc) (ms := K.mulModuli) (start := ci)
    (keys := { a := [(matCt key.key0).c1], b := [(matCt key.key0).c0], moduli := key.key0.moduli }) (out := x) hms le_rfl hn hl
    (by rw [hd]; exact (repKey_slice h0).1) (by rw [hd]; exact (repKey_slice h0).2) x1
  obtain ⟨Y, Y1, Y2⟩ := keySwitch_rep (S := K.switcher) (ct := ⟨underZero ⟨1, ct.data.n, ct.data.l, fun _ t i => be i t⟩, ct.moduli⟩)
    (ksk := asKeys key.key1) (p := p) (bc := K.bc) (ms := K.mulModuli) (start := ci)
    (keys := { a := [(matCt key.key1).c1], b := [(matCt key.key1).c0], moduli := key.key1.moduli }) (out := y) hms le_rfl hn hl
    (by rw [hd]; exact (repKey_slice h1).1) (by rw [hd]; exact (repKey_slice h1).2) y1
  obtain ⟨s, s1, s2, s3⟩ := map2_same add64 (A := X.data) (B := Y.data) (e := 2) (n := ct.data.n) (l := (ct.moduli ++ p).length)
    ⟨X2.e, X2.n, by rw [X2.l, hxm.1]⟩ ⟨Y2.e, Y2.n, by rw [Y2.l, hxm.2]⟩
  obtain ⟨w, w1, w2, w3⟩ := map2_row (fun x m : Nat => x % m % 2 ^ 32) 0 (ct.moduli ++ p) s2 rfl
  have hrep : Rep ct.data.n ⟨w, ct.moduli ++ p⟩
      { c0 := fun i t => add64 (x.c0 i t) (y.c0 i t) % x.moduli.getD i 0 % 2 ^ 32,
        c1 := fun i t => add64 (x.c1 i t) (y.c1 i t) % x.moduli.getD i 0 % 2 ^ 32, moduli := x.moduli } := by
    refine ⟨w2.1, w2.2.1, by rw [w2.2.2, hxm.1], hxm.1.symm, ?_, ?_⟩
    · intro t i ht hi
      simp only [hxm.1] at hi ⊢
      rw [w3 0 t i (by norm_num) ht hi, s3 0 t i (by norm_num) ht hi, X2.c0 t i ht (by rw [hxm.1]; exact hi),
        Y2.c0 t i ht (by rw [hxm.2]; exact hi)]
    · intro t i ht hi
      simp only [hxm.1] at hi ⊢
      rw [w3 1 t i (by norm_num) ht hi, s3 1 t i (by norm_num) ht hi, X2.c1 t i ht (by rw [hxm.1]; exact hi),
        Y2.c1 t i ht (by rw [hxm.2]; exact hi)]
  obtain ⟨R, R1, R2⟩ := rescale_rep r1 r2 hm hrep h
  refine ⟨R, ?_, R2⟩
  have hmin : min 1 (ct.data.e - 1) = 1 := by omega
  have ha' : CkksRotate.rotate ct.data.n g ct.data.l (fun i t => ct.data.get 1 t i) = .ok al := by rw [hl]; exact a1
  have hb' : CkksRotate.rotate ct.data.n g ct.data.l (fun i t => ct.data.get 0 t i) = .ok be := by rw [hl]; exact b1
  unfold hmuxrot elem
  rw [g1, if_neg (by omega), if_neg (by omega), hmin]
  simp only [bind, Except.bind, rotateArr, Nat.zero_min]
  rw [ha']
  simp only [pure, Except.pure]
  rw [hb']
  simp only
  rw [hK.switcher, hK.bc, hK.mulModuli, X1]
  simp only
  rw [Y1]
  simp only
  rw [s1]
  simp only
  rw [X2.moduli, hxm.1, w1, r3]
  exact R1

theorem mulBarrett_same {ms mC : List Nat} {c x : Arr Nat} {n : Nat} (hc : c.e = 2 ∧ c.n = n ∧ c.l = ms.length)
    (hx : x.e = 1 ∧ x.n = n ∧ x.l = ms.length) :
    ∃ T, CkksObj.mulBarrett (some ms) ⟨c, mC⟩ ⟨x, mC⟩ = .ok T ∧ (T.data.e = 2 ∧ T.data.n = n ∧ T.data.l = ms.length) ∧
      ∀ a t i, a < 2 → t < n → i < ms.length → T.data.get a t i =
        modularReduction (mul64 (c.get a t i) (x.get 0 t i)) (Barrett.precompute (ms.getD i 0)) % 2 ^ 32 := by
  obtain ⟨c1, c2, c3⟩ := hc
  obtain ⟨x1, x2, x3⟩ := hx
  refine ⟨_, (CkksObj.mulBarrett_ok_iff x1).2 ⟨⟨rfl, ?_, ?_, ?_⟩, rfl⟩, ?_, ?_⟩
  · simp only [c2, x2]; exact compat_self _
  · simp only [c3, x3]; exact compat_self _
  · simp only [c3, x3, bd_self]; exact compat_self _
  · simp only [c1, c2, c3, x2, x3, bd_self, and_self]
  · intro a t i ha ht hi
    simp only [c1, c2, c3, x2, x3, bd_self]
    rw [pick_eq ha, pick_eq ht, pick_eq (d := ms.length) hi, pick_eq (d := ms.length) hi]

/-- The sum of the products of `brot_cm`. -/
theorem sumLoop_ok {ms mC : List Nat} {n : Nat} : ∀ (xs : List (Arr Nat × Arr Nat)) (acc : Arr Nat),
    (∀ x ∈ xs, (x.1.e = 2 ∧ x.1.n = n ∧ x.1.l = ms.length) ∧ (x.2.e = 1 ∧ x.2.n = n ∧ x.2.l = ms.length)) →
    (acc.e = 2 ∧ acc.n = n ∧ acc.l = ms.length) →
    ∃ T, sumLoop (some ms) mC mC xs acc = .ok T ∧ (T.e = 2 ∧ T.n = n ∧ T.l = ms.length) ∧
      ∀ a t i, a < 2 → t < n → i < ms.length → T.get a t i = (xs.map (fun x =>
        modularReduction (mul64 (x.1.get a t i) (x.2.get 0 t i)) (Barrett.precompute (ms.getD i 0)) % 2 ^ 32)).foldl add64
          (acc.get a t i) := by
  intro xs
  induction xs with
  | nil => intro acc _ hacc; exact ⟨acc, rfl, hacc, fun _ _ _ _ _ _ => rfl⟩
  | cons x xs ih =>
    intro acc hxs hacc
    obtain ⟨P, p1, p2, p3⟩ := mulBarrett_same (mC := mC) (hxs x (by simp)).1 (hxs x (by simp)).2
    obtain ⟨A, a1, a2, a3⟩ := map2_same add64 hacc p2
    obtain ⟨T, t1, t2, t3⟩ := ih A (fun y hy => hxs y (by simp [hy])) a2
    refine ⟨T, ?_, t2, ?_⟩
    · obtain ⟨x1, x2⟩ := x
      unfold sumLoop
      simp only [bind, Except.bind]
      rw [p1]
      simp only
      rw [a1]
      exact t1
    · intro a t i ha ht hi
      rw [t3 a t i ha ht hi, a3 a t i ha ht hi, p3 a t i ha ht hi]
      rfl

/-- The plaintext of an object. -/
def matPt (x : CkksObj.PtObj) : Plaintext := ⟨fun i t => x.data.get 0 t i, x.moduli⟩

theorem brotCm_rep {K' : Kernel} {K : CkksRotate.Kernel} (hK : RepKernel K' K) {cms : List CtObj} {pts : List CkksObj.PtObj} {n : Nat}
    (hc : ∀ c ∈ cms, (c.data.e = 2 ∧ c.data.n = n ∧ c.data.l = K.mulModuli.length) ∧ c.moduli = K.mulModuli)
    (hp : ∀ x ∈ pts, (x.data.e = 1 ∧ x.data.n = n ∧ x.data.l = K.mulModuli.length) ∧ x.moduli = K.mulModuli) {out : Ciphertext}
    (h : CkksRotate.brotCm K n (cms.map matCt) (pts.map matPt) = .ok out) :
    ∃ R, brotCm K' cms pts = .ok R ∧ Rep n R out := by
  obtain ⟨nr, r, c, R', hm, r1, r2, r3⟩ := hK.rescaler
  unfold CkksRotate.brotCm at h
  by_cases hl : cms.length = pts.length
  swap
  · rw [if_pos (by simpa using hl)] at h; simp at h
  rw [if_neg (by simpa using hl)] at h
  cases cms with
  | nil => simp at h
  | cons c0 cs =>
  cases pts with
  | nil => simp at hl
  | cons x0 xs =>
  obtain ⟨hc0, hc0m⟩ := hc c0 (by simp)
  obtain ⟨hx0, hx0m⟩ := hp x0 (by simp)
  rw [List.map_cons, List.map_cons] at h
  simp only at h
  have hcm : (matCt c0).moduli = K.mulModuli := hc0m
  have hpm : (matPt x0).moduli = K.mulModuli := hx0m
  rw [hcm, hpm, if_neg (by simp)] at h
  obtain ⟨prods, h1, h2⟩ := bind_ok_iff.1 h
  obtain ⟨zs, hz⟩ : ∃ zs, zs = (c0 :: cs).zipWith (fun (c : CtObj) (x : CkksObj.PtObj) => (c.data, x.data)) (x0 :: xs) := ⟨_, rfl⟩
  have hzlen : zs.length = (c0 :: cs).length := by rw [hz, List.length_zipWith, ← hl, Nat.min_self]
  have hzget : ∀ j (hj : j < (c0 :: cs).length), zs[j]'(by omega) = ((c0 :: cs)[j].data, ((x0 :: xs)[j]'(by omega)).data) := by
    intro j hj; simp only [hz, List.getElem_zipWith]
  have hzs : ∀ z ∈ zs, (z.1.e = 2 ∧ z.1.n = n ∧ z.1.l = K.mulModuli.length) ∧ (z.2.e = 1 ∧ z.2.n = n ∧ z.2.l = K.mulModuli.length) := by
    intro z hzm
    obtain ⟨j, hj, rfl⟩ := List.getElem_of_mem hzm
    rw [hzget j (by omega)]
    exact ⟨(hc _ (List.getElem_mem _)).1, (hp _ (List.getElem_mem _)).1⟩
  -- the products of the elements
  have hprods : prods = zs.map (fun z =>
      ((fun i t => modularReduction (mul64 (z.1.get 0 t i) (z.2.get 0 t i)) (Barrett.precompute (K.mulModuli.getD i 0)) % 2 ^ 32 : Mat),
       (fun i t => modularReduction (mul64 (z.1.get 1 t i) (z.2.get 0 t i)) (Barrett.precompute (K.mulModuli.getD i 0)) % 2 ^ 32 : Mat))) := by
    have hlen := (Verif.Props.RescaleObj.mapM_take _ _ _ h1).1
    rw [List.length_range] at hlen
    apply List.ext_getElem
    · rw [hlen, List.length_map, hzlen]; simp
    · intro j hj1 hj2
      have hj : j < (c0 :: cs).length := by rw [List.length_map, hzlen] at hj2; exact hj2
      have := mapM_range_ok h1 (fun _ _ => 0, fun _ _ => 0) j (by simpa using hj)
      rw [List.getD_eq_getElem _ _ hj1] at this
      rw [List.getD_eq_getElem _ _ (by simpa using hj), List.getD_eq_getElem _ _ (by simpa [hl] using hj)] at this
      simp only [CkksMul.mulBarrett, ne_eq, not_true_eq_false, if_false, bind, Except.bind, pure, Except.pure, Except.ok.injEq] at this
      rw [← this, List.getElem_map, hzget j hj]
      simp only [← List.map_cons, List.getElem_map]
      rfl
  obtain ⟨F, f1, f2, -⟩ := mulBarrett_same (mC := K.mulModuli) hc0 hx0
  obtain ⟨T, t1, t2, t3⟩ := sumLoop_ok (mC := K.mulModuli) zs { F.data with get := fun _ _ _ => 0 } hzs f2
  obtain ⟨Z, z1, z2, z3⟩ := map2_row (fun z m : Nat => modularReduction z (Barrett.precompute m) % 2 ^ 32) (A := T) 0 K.mulModuli t2 rfl
  obtain ⟨R, q1, q2⟩ := rescale_rep (R := ⟨Z, K.mulModuli⟩) r1 r2 hm
    ⟨z2.1, z2.2.1, z2.2.2, rfl, by
      intro t i ht hi
      rw [z3 0 t i (by norm_num) ht hi, t3 0 t i (by norm_num) ht hi, hprods]
      simp only [List.map_map]
      rfl, by
      intro t i ht hi
      rw [z3 1 t i (by norm_num) ht hi, t3 1 t i (by norm_num) ht hi, hprods]
      simp only [List.map_map]
      rfl⟩ h2
  refine ⟨R, ?_, q2⟩
  unfold brotCm
  rw [if_neg (by simpa using hl)]
  simp only
  rw [hc0m, hx0m, if_neg (by simp), if_neg, hK.mulModuli]
  · simp only [bind, Except.bind]
    rw [f1]
    simp only
    rw [← hz, t1]
    simp only [Option.getD_some]
    rw [z1, r3]
    exact q1
  · rw [not_not]
    constructor
    · rw [List.all_eq_true]
      intro y hy
      obtain ⟨⟨y1, y2, y3⟩, -⟩ := hc y hy
      simp [sameShape, y1, y2, y3, hc0.1, hc0.2.1, hc0.2.2]
    · rw [List.all_eq_true]
      intro y hy
      obtain ⟨⟨y1, y2, y3⟩, -⟩ := hp y hy
      simp [sameShape, y1, y2, y3, hx0.1, hx0.2.1, hx0.2.2]

end Verif.CkksRotObj
