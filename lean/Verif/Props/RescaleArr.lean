import Verif.Lemmas.RescaleArr

/-!
# Property C86: the rescale kernel on ciphertext objects
-/

namespace Verif.Props
open Verif.CkksMath Verif.Barrett Verif.NttBat Verif.Rescale Verif.RescaleArr Verif.Slots

namespace RescaleObj

theorem mapM_take {α β : Type} (f : α → Except String β) : ∀ (l : List α) (ys : List β), l.mapM f = .ok ys →
    ys.length = l.length ∧ ∀ k, (l.take k).mapM f = .ok (ys.take k) := by
  intro l
  induction l with
  | nil =>
    intro ys h
    simp only [List.mapM_nil, pure, Except.pure, Except.ok.injEq] at h
    subst h
    exact ⟨rfl, fun k => by simp [pure, Except.pure]⟩
  | cons x l ih =>
    intro ys h
    rw [List.mapM_cons] at h
    simp only [bind, Except.bind] at h
    cases hx : f x with
    | error e => rw [hx] at h; simp at h
    | ok y =>
      rw [hx] at h
      simp only at h
      cases hl : l.mapM f with
      | error e => rw [hl] at h; simp at h
      | ok zs =>
        rw [hl] at h
        simp only [pure, Except.pure, Except.ok.injEq] at h
        subst h
        obtain ⟨h1, h2⟩ := ih zs hl
        refine ⟨by simp [h1], ?_⟩
        intro k
        cases k with
        | zero => simp [pure, Except.pure]
        | succ k => simp [List.mapM_cons, bind, Except.bind, hx, h2 k, pure, Except.pure]

/-- The object's constants are those of the one-element model. -/
theorem precompute_spec (ms : List Nat) (n r c : Nat) :
    (∀ x, Rescale.precompute ms n r c = .error x → Verif.RescaleArr.precompute ms n r c = .error x) ∧
    (∀ K, Rescale.precompute ms n r c = .ok K → ∃ K' : RescaleArr.Kernel, Verif.RescaleArr.precompute ms n r c = .ok K' ∧ K'.moduli = ms ∧
      K'.r = r ∧ K'.c = c ∧ K'.levels.length = n ∧ 0 < n ∧ LevelsFor K.tables K'.levels K.consts ms ∧
      K.moduli = ms ∧ K.r = r ∧ K.c = c) := by
  unfold Rescale.precompute Verif.RescaleArr.precompute
  simp only [bind, Except.bind]
  cases ht : ms.mapM (fun (q : Nat) => precomputeTables r c q) with
  | error e => exact ⟨fun x h => by simpa using h, fun K h => by simp at h⟩
  | ok tables =>
    simp only
    obtain ⟨h1, h2⟩ := levelsLoop_spec ms tables (mapM_take _ _ _ ht).1 n ms (by simp)
    cases hc : constsLoop n ms with
    | error e =>
      simp only
      rw [h1 e hc]
      exact ⟨fun x h => by simpa using h, fun K h => by simp at h⟩
    | ok consts =>
      obtain ⟨levels, j1, j2, j3⟩ := h2 consts hc
      simp only
      rw [j1]
      simp only
      by_cases h0 : n = 0
      · simp only [if_pos h0]
        exact ⟨fun x h => by simpa [throw, throwThe, MonadExceptOf.throw] using h, fun K h => by simp [throw, throwThe, MonadExceptOf.throw] at h⟩
      · simp only [if_neg h0]
        refine ⟨fun x h => by simp [pure, Except.pure] at h, ?_⟩
        intro K h
        simp only [pure, Except.pure, Except.ok.injEq] at h
        subst h
        exact ⟨⟨ms, r, c, levels⟩, rfl, rfl, rfl, rfl, j3, Nat.pos_of_ne_zero h0, j2, rfl, rfl, rfl⟩

theorem precompute_inv {ms : List Nat} {n r c : Nat} {K' : RescaleArr.Kernel} (h : Verif.RescaleArr.precompute ms n r c = .ok K') :
    ∃ K, K'.moduli = ms ∧ K'.r = r ∧ K'.c = c ∧ K'.levels.length = n ∧ 0 < n ∧ n < ms.length ∧
      LevelsFor K.tables K'.levels K.consts ms ∧ Rescale.precompute ms n r c = .ok K := by
  obtain ⟨h1, h2⟩ := precompute_spec ms n r c
  cases hk : Rescale.precompute ms n r c with
  | error e => rw [h1 e hk] at h; simp at h
  | ok K =>
    obtain ⟨K'', k1, k2, k3, k4, k5, k6, k7, -⟩ := h2 K hk
    rw [k1] at h
    obtain rfl := Except.ok.inj h
    have := k7.length.2 (by rintro hn; rw [hn] at k5; simp at k5; omega)
    exact ⟨K, k2, k3, k4, k5, k6, by omega, k7, rfl⟩

end RescaleObj

open RescaleObj

/-- C86: on a ciphertext object of any number of elements whose data has one limb for each modulus of the kernel
(a chain with the size restriction of C38), `rescale` succeeds; afterwards the object holds the first moduli, data with
one limb for each of them, and every element represents the old one divided by the dropped moduli, rounded to
nearest at every step. -/
theorem C86_rescale (kr kc n : Nat) (moduli : List Nat) (h0 : 0 < n) (hn : n < moduli.length) (hc : Chain kr kc moduli) :
    ∃ K, RescaleArr.precompute moduli n (2 ^ kr) (2 ^ kc) = .ok K ∧
      ∀ ct : CtObj, 0 < ct.data.e → ct.data.n = 2 ^ (kr + kc) → ct.data.l = moduli.length →
        (∀ a p i, ct.data.get a p i < 2 ^ 32) →
        ∃ out, RescaleArr.rescale (some K) ct = .ok out ∧ out.moduli = moduli.take (moduli.length - n) ∧
          out.data.e = ct.data.e ∧ out.data.n = ct.data.n ∧ out.data.l = moduli.length - n ∧
          ∀ a, a < ct.data.e →
            (∃ x : Nat → Int, ∀ i, i < moduli.length →
              ringOf (kr + kc) (moduli.getD i 0) (fun p => ct.data.get a p i) = polyOf (kr + kc) (moduli.getD i 0) x) ∧
            ∀ i, i < moduli.length - n →
              (∀ p, p < 2 ^ (kr + kc) → out.data.get a p i < moduli.getD i 0) ∧
              ∀ x : Nat → Int, (∀ i, i < moduli.length →
                ringOf (kr + kc) (moduli.getD i 0) (fun p => ct.data.get a p i) = polyOf (kr + kc) (moduli.getD i 0) x) →
                ringOf (kr + kc) (moduli.getD i 0) (fun p => out.data.get a p i) =
                  polyOf (kr + kc) (moduli.getD i 0) (fun j => divRounds n moduli (x j)) := by
  obtain ⟨K0, hK0, hspec⟩ := C38_rescale_partial kr kc n moduli h0 hn hc
  obtain ⟨K, k1, k2, k3, k4, k5, k6, k7, k8, k9, k10⟩ := (precompute_spec moduli n (2 ^ kr) (2 ^ kc)).2 K0 hK0
  refine ⟨K, k1, ?_⟩
  intro ct he hN hl hw
  have hmod : ∀ m ∈ moduli, 0 < m ∧ m < 2 ^ 32 := fun m hm =>
    ⟨(hc.four m hm).prime.pos, lt_trans (hc.four m hm).good.lt (by norm_num)⟩
  have hN' : ct.data.n = 2 ^ kr * 2 ^ kc := by rw [hN, pow_add]
  obtain ⟨out, o1, o2, o3, o4, o5⟩ := loopArr_spec (2 ^ kr) (2 ^ kc) K0.tables K.levels K0.consts moduli k7 hmod ct.data
    hN' hl
  rw [k5] at o1 o4
  refine ⟨⟨out, moduli.take (moduli.length - n)⟩, ?_, rfl, o2, o3, o4, ?_⟩
  · unfold RescaleArr.rescale
    simp only [k2, k3, k4]
    rw [if_neg (by rw [hN']; simp), if_neg he.ne', o1]
    rfl
  · intro a ha
    obtain ⟨s1, out0, s2, s3⟩ := hspec (fun i p => ct.data.get a p i) (fun i p _ _ => hw a p i)
    refine ⟨s1, ?_⟩
    intro i hi
    obtain ⟨s4, s5⟩ := s3 i hi
    have hout : ∀ p, p < 2 ^ (kr + kc) → out.get a p i = out0 i p := by
      intro p hp
      rw [o5 a p i ha (by omega) (by omega)]
      unfold Rescale.rescale at s2
      simp only [k8, k9, k10] at s2
      rw [if_neg (by rw [pow_add]; simp), if_neg (by simp)] at s2
      have := congrArg Prod.snd (Except.ok.inj s2)
      simp only at this
      rw [this]
    have hp := FourStep.nttPrime (hc.four (moduli.getD i 0) (by
      rw [List.getD_eq_getElem _ _ (show i < moduli.length by omega)]; exact List.getElem_mem _))
    refine ⟨fun p hp => by rw [hout p hp]; exact s4 p hp, ?_⟩
    intro x hx
    rw [← s5 x hx]
    apply ringOf_congr hp
    intro p hpp
    rw [hout p hpp]

theorem fourStep_1049 : FourStep 0 1 1049 :=
  ⟨PrimeCheck.prime_of_noDiv _ 5 (by norm_num) (by decide +kernel) (by norm_num), by decide,
    ⟨by norm_num, by norm_num, by decide +kernel⟩, by decide +kernel, by decide +kernel, by norm_num, by norm_num⟩

/-- The hypotheses of `C86_rescale` are met: three moduli, one or two rescales, a ciphertext of three elements. -/
theorem chain3 : Chain 0 1 [1033, 1049, 1069] :=
  ⟨by intro m hm; simp at hm; rcases hm with rfl | rfl | rfl; exacts [fourStep_1033, fourStep_1049, fourStep_1069],
    by decide, by simp⟩

/-- A ciphertext of `e` elements and `l` limbs, degree 2: constant polynomials. -/
def constCt (e : Nat) (moduli : List Nat) (x : Nat) : CtObj :=
  ⟨⟨e, 2, moduli.length, fun a _ i => (x + a) % moduli.getD i 1⟩, moduli⟩

example : 0 < (constCt 3 [1033, 1049, 1069] 5000).data.e ∧ (constCt 3 [1033, 1049, 1069] 5000).data.n = 2 ^ (0 + 1) ∧
    (constCt 3 [1033, 1049, 1069] 5000).data.l = [1033, 1049, 1069].length ∧
    ∀ a p i, (constCt 3 [1033, 1049, 1069] 5000).data.get a p i < 2 ^ 32 := by
  refine ⟨by decide, rfl, rfl, ?_⟩
  intro a p i
  simp only [constCt]
  rcases i with _ | _ | _ | i
  · exact lt_trans (Nat.mod_lt _ (by decide)) (by decide)
  · exact lt_trans (Nat.mod_lt _ (by decide)) (by decide)
  · exact lt_trans (Nat.mod_lt _ (by decide)) (by decide)
  · simp [Nat.mod_one]

/-- C86: exactly which objects the kernel of a moduli list accepts. Besides those of the right degree with one limb for
each modulus, it accepts those with two limbs, whatever the number of moduli, and, with two moduli, those with any
number of limbs; all others make it raise. -/
theorem C86_accepts (moduli : List Nat) (n r c : Nat) (K : RescaleArr.Kernel)
    (hK : RescaleArr.precompute moduli n r c = .ok K) (hm : ∀ m ∈ moduli, 0 < m ∧ m < 2 ^ 32) (ct : CtObj) :
    (∃ out, RescaleArr.rescale (some K) ct = .ok out) ↔
      ct.data.n = r * c ∧ 0 < ct.data.e ∧ 0 < ct.data.l ∧
        (ct.data.l = moduli.length ∨ ct.data.l = 2 ∨ moduli.length = 2) := by
  obtain ⟨K0, k1, k2, k3, k4, k5, k6, k7, -⟩ := precompute_inv hK
  unfold RescaleArr.rescale
  simp only [k1, k2, k3]
  by_cases hn : ct.data.n = r * c
  swap
  · rw [if_pos hn]
    simp [hn]
  rw [if_neg (by simpa using hn)]
  by_cases he : ct.data.e = 0
  · rw [if_pos he]
    simp [he]
  rw [if_neg he]
  have he' : 0 < ct.data.e := Nat.pos_of_ne_zero he
  cases hlv : K.levels with
  | nil => rw [hlv] at k4; simp at k4; omega
  | cons L levels =>
    rw [hlv] at k7
    cases hcs : K0.consts with
    | nil => rw [hcs] at k7; simp [LevelsFor] at k7
    | cons gb consts =>
      rw [hcs] at k7
      obtain ⟨rest, qL, rfl, hne, hL, h2⟩ := k7
      have hdrop : (rest ++ [qL]).dropLast = rest := by simp
      have hrl := List.length_pos_iff.2 hne
      simp only [loopArr, hdrop, List.length_append, List.length_cons, List.length_nil, zero_add]
      rcases Nat.eq_zero_or_pos ct.data.l with hl | hl
      · have : stepArr r c L (rest ++ [qL]) ct.data = .error "TypeError" := by
          unfold stepArr lastLimb
          rw [if_pos hl]
          rfl
        rw [this]
        simp [bind, Except.bind, hl]
      · obtain ⟨s1, s2⟩ := stepArr_spec r c K0.tables rest qL gb L hL (fun m hmm => (hm m (by simp [hmm])).2)
          (fun m hmm => (hm m (by simp [hmm])).1) ct.data hn hl
        cases hb : bdim (ct.data.l - 1) rest.length with
        | error x =>
          rw [s2 x hb]
          simp only [bind, Except.bind]
          constructor
          · rintro ⟨_, h⟩; simp at h
          · rintro ⟨-, -, -, h⟩
            exfalso
            have : ct.data.l - 1 = rest.length ∨ ct.data.l - 1 = 1 ∨ rest.length = 1 := by omega
            rcases this with h | h | h
            · rw [h, bdim_self] at hb; simp at hb
            · rw [h, bdim_one_left] at hb; simp at hb
            · rw [h, bdim_one_right] at hb; simp at hb
        | ok l =>
          obtain ⟨d, d1, d2, d3, d4, -⟩ := s1 l hb
          rw [d1]
          simp only [bind, Except.bind]
          have hcase : l = rest.length ∨ rest.length = 1 := by
            unfold bdim at hb
            split at hb
            · left; have := Except.ok.inj hb; omega
            · split at hb
              · left; exact (Except.ok.inj hb).symm
              · split at hb
                · right; assumption
                · simp at hb
          have hok : ∃ o, loopArr r c levels rest d = .ok o := by
            rcases hcase with h | h
            · obtain ⟨o, o1, -⟩ := loopArr_spec r c K0.tables levels consts rest h2 (fun m hmm => hm m (by simp [hmm])) d
                (by rw [d3, hn]) (by rw [d4, h])
              exact ⟨_, o1⟩
            · have hlv0 : levels = [] := by
                by_contra hne'
                have := h2.length.2 hne'
                have := List.length_pos_iff.2 hne'
                omega
              rw [hlv0]
              exact ⟨_, rfl⟩
          obtain ⟨o, ho⟩ := hok
          rw [ho]
          simp only [pure, Except.pure]
          refine ⟨fun _ => ⟨hn, he', hl, ?_⟩, fun _ => ⟨_, rfl⟩⟩
          unfold bdim at hb
          split at hb
          · omega
          · split at hb
            · omega
            · split at hb
              · omega
              · simp at hb

/-- The kernels of the theorems exist. -/
theorem kernel_exists {moduli : List Nat} {n : Nat} (h0 : 0 < n) (hn : n < moduli.length) (hc : Chain 0 1 moduli) :
    ∃ K, RescaleArr.precompute moduli n 1 2 = .ok K := by
  obtain ⟨K, hK, -⟩ := C86_rescale 0 1 n moduli h0 hn hc
  exact ⟨K, hK⟩

example : (∃ K, RescaleArr.precompute [1033, 1049, 1069] 2 1 2 = .ok K) ∧
    ∀ m ∈ [1033, 1049, 1069], 0 < m ∧ m < 2 ^ 32 := ⟨kernel_exists (by decide) (by decide) chain3, by decide⟩

/-- C86: `rescale` does not look at the moduli of the object. -/
theorem C86_ignores_moduli (K : Option RescaleArr.Kernel) (data : Arr Nat) (ms ms' : List Nat) :
    RescaleArr.rescale K ⟨data, ms⟩ = RescaleArr.rescale K ⟨data, ms'⟩ := by
  cases K <;> rfl

/-- C86: the same kernel cannot be applied to its own result when four or more moduli are given; with three or two it
can be, and does not raise (see `C86_reuse_wrong`). -/
theorem C86_reuse (moduli : List Nat) (r c : Nat) (K : RescaleArr.Kernel)
    (hK : RescaleArr.precompute moduli 1 r c = .ok K) (hm : ∀ m ∈ moduli, 0 < m ∧ m < 2 ^ 32) (ct out : CtObj)
    (hl : ct.data.l = moduli.length) (hr : RescaleArr.rescale (some K) ct = .ok out) :
    out.data.l = moduli.length - 1 ∧ ((∃ again, RescaleArr.rescale (some K) out = .ok again) ↔ moduli.length ≤ 3) := by
  obtain ⟨K0, k1, k2, k3, k4, k5, k6, k7, -⟩ := precompute_inv hK
  have hacc := (C86_accepts moduli 1 r c K hK hm ct).1 ⟨out, hr⟩
  obtain ⟨o, o1, o2, o3, o4, -⟩ := loopArr_spec r c K0.tables K.levels K0.consts moduli k7 hm ct.data hacc.1 hl
  unfold RescaleArr.rescale at hr
  simp only [k1, k2, k3] at hr
  rw [if_neg (by simpa using hacc.1), if_neg hacc.2.1.ne', o1] at hr
  simp only [bind, Except.bind, pure, Except.pure, Except.ok.injEq] at hr
  subst hr
  simp only
  rw [k4] at o4
  refine ⟨o4, ?_⟩
  rw [C86_accepts moduli 1 r c K hK hm]
  simp only [o2, o3, o4]
  constructor
  · rintro ⟨-, -, -, h⟩
    omega
  · intro h
    exact ⟨hacc.1, hacc.2.1, by omega, by omega⟩

example : ∃ K, RescaleArr.precompute [1033, 1049, 1069] 1 1 2 = .ok K ∧
    (∃ out, RescaleArr.rescale (some K) (constCt 2 [1033, 1049, 1069] 5000) = .ok out) := by
  obtain ⟨K, hK⟩ := kernel_exists (n := 1) (by decide) (by decide) chain3
  exact ⟨K, hK, (C86_accepts _ _ _ _ K hK (by decide) _).2 ⟨rfl, by decide, by decide, Or.inl rfl⟩⟩

/-- C86: rescaling by `a + b` moduli is rescaling by `a` moduli and then, with the kernel of the moduli that are left,
by `b` moduli: the same object, or the same exception, for every object. -/
theorem C86_split (moduli : List Nat) (a b r c : Nat) (ha : 0 < a) (hb : 0 < b) (K : RescaleArr.Kernel)
    (hK : RescaleArr.precompute moduli (a + b) r c = .ok K) (hm : ∀ m ∈ moduli, 0 < m ∧ m < 2 ^ 32) :
    ∃ K1 K2, RescaleArr.precompute moduli a r c = .ok K1 ∧
      RescaleArr.precompute (moduli.take (moduli.length - a)) b r c = .ok K2 ∧
      ∀ ct, RescaleArr.rescale (some K) ct = (RescaleArr.rescale (some K1) ct).bind (RescaleArr.rescale (some K2)) := by
  unfold RescaleArr.precompute at hK
  simp only [bind, Except.bind] at hK
  cases ht : moduli.mapM (fun (q : Nat) => precomputeTables r c q) with
  | error e => rw [ht] at hK; simp at hK
  | ok tables =>
    rw [ht] at hK
    simp only at hK
    cases hl : levelsLoop (moduli.zip tables) moduli.length (a + b) moduli with
    | error e => rw [hl] at hK; simp at hK
    | ok levels =>
      rw [hl] at hK
      simp only [if_neg (show a + b ≠ 0 by omega), pure, Except.pure, Except.ok.injEq] at hK
      obtain ⟨l1, l2, e1, e2, e3⟩ := levelsLoop_append _ _ a b moduli levels hl
      obtain ⟨htl, htk⟩ := mapM_take _ _ _ ht
      obtain ⟨l2', e4, e5⟩ := levelsLoop_prefix (moduli.zip tables) moduli.length (moduli.length - a) (by omega) b
        (moduli.take (moduli.length - a)) (by simp) l2 e3
      have hlen : (moduli.take (moduli.length - a)).length = moduli.length - a := by simp
      have hK1 : RescaleArr.precompute moduli a r c = .ok ⟨moduli, r, c, l1⟩ := by
        unfold RescaleArr.precompute
        simp only [bind, Except.bind, ht, e2, if_neg ha.ne', pure, Except.pure]
      refine ⟨⟨moduli, r, c, l1⟩, ⟨moduli.take (moduli.length - a), r, c, l2'⟩, hK1, ?_, ?_⟩
      · unfold RescaleArr.precompute
        simp only [bind, Except.bind, htk]
        rw [hlen, show (moduli.take (moduli.length - a)).zip (tables.take (moduli.length - a)) =
          (moduli.zip tables).take (moduli.length - a) from by
            simp [List.zip, List.take_zipWith], e4]
        simp only [if_neg hb.ne', pure, Except.pure]
      · intro ct
        rw [← hK]
        unfold RescaleArr.rescale
        simp only
        by_cases hn : ct.data.n = r * c
        swap
        · simp only [if_pos (show ct.data.n ≠ r * c from hn)]; rfl
        simp only [if_neg (show ¬ ct.data.n ≠ r * c by simpa using hn)]
        by_cases he : ct.data.e = 0
        · simp only [if_pos he]; rfl
        simp only [if_neg he]
        rw [e1, loopArr_append]
        cases h1 : loopArr r c l1 moduli ct.data with
        | error x => simp [bind, Except.bind]
        | ok x =>
          obtain ⟨K0, k1, k2, k3, k4, k5, k6, k7, -⟩ := precompute_inv hK1
          obtain ⟨s1, s2⟩ := loopArr_shape r c K0.tables l1 K0.consts moduli k7 hm ct.data x hn h1
          have s3 := loopArr_moduli r c l1 moduli ct.data x h1
          simp only at k4
          rw [k4] at s3
          simp only [bind, Except.bind, pure, Except.pure]
          rw [if_neg (by rw [s2, hn]; simp), if_neg (by omega), s3, e5]

example : (∃ K, RescaleArr.precompute [1033, 1049, 1069] (1 + 1) 1 2 = .ok K) :=
  kernel_exists (by decide) (by decide) chain3

/-- C86: `rescale` raises before `precompute_constants` and on another degree; then the object is as it was, because
nothing is assigned. `precompute_constants` raises when no modulus would be left and for no rescales. -/
theorem C86_rejects (K : RescaleArr.Kernel) (ct : CtObj) (moduli : List Nat) (n r c : Nat) :
    RescaleArr.rescale none ct = .error "ValueError" ∧
    (ct.data.n ≠ K.r * K.c → RescaleArr.rescale (some K) ct = .error "AssertionError") ∧
    (moduli.length ≤ n ∨ n = 0 → ∃ e, RescaleArr.precompute moduli n r c = .error e) := by
  refine ⟨rfl, ?_, ?_⟩
  · intro h
    unfold RescaleArr.rescale
    simp only
    rw [if_pos h]
  · intro h
    cases hK : RescaleArr.precompute moduli n r c with
    | error e => exact ⟨e, rfl⟩
    | ok K =>
      obtain ⟨K0, -, -, -, -, h1, h2, -⟩ := precompute_inv hK
      omega

/-- What is left of a ciphertext of `e` elements, as a list: number of limbs, moduli, first entries of the limbs. -/
def view (x : Except String CtObj) : Option (Nat × List Nat × List Nat) :=
  match x with
  | .error _ => none
  | .ok ct => some (ct.data.l, ct.moduli, (List.range ct.data.l).map (fun i => ct.data.get 0 0 i))

/-- C86, violation: objects of other moduli are accepted and spoilt. The constant 5245 = 5 · 1049 given with the moduli
`[1033, 1049]` should be divided by 1049, giving 5, or be refused. (1) The kernel for `[1033, 1049, 1069]` accepts it,
leaves it with both moduli, and its residues are neither those of 5 nor those of 5245. (2) The kernel for
`[1033, 1069]` accepts it and leaves a residue other than 5. (3) The kernel for `[1033, 1049]`, applied a second time,
leaves data without limbs under the modulus 1033. -/
theorem C86_foreign_wrong :
    (∃ a b, view (rescaleWith [1033, 1049, 1069] 1 1 2 (constCt 1 [1033, 1049] 5245)) =
      some (2, [1033, 1049], [a, b]) ∧ a ≠ 5 ∧ a ≠ 5245 % 1033) ∧
    (∃ a, view (rescaleWith [1033, 1069] 1 1 2 (constCt 1 [1033, 1049] 5245)) = some (1, [1033], [a]) ∧ a ≠ 5) ∧
    view (rescaleWith [1033, 1049] 1 1 2 (constCt 1 [1033, 1049] 5245)) = some (1, [1033], [5]) ∧
    view (do let x ← rescaleWith [1033, 1049] 1 1 2 (constCt 1 [1033, 1049] 5245)
             rescaleWith [1033, 1049] 1 1 2 x) = some (0, [1033], []) := by
  refine ⟨?_, ?_, by decide +kernel, by decide +kernel⟩
  · have h : (match view (rescaleWith [1033, 1049, 1069] 1 1 2 (constCt 1 [1033, 1049] 5245)) with
      | some (2, [1033, 1049], [a, b]) => decide (a ≠ 5 ∧ a ≠ 5245 % 1033)
      | _ => false) = true := by decide +kernel
    revert h
    generalize view (rescaleWith [1033, 1049, 1069] 1 1 2 (constCt 1 [1033, 1049] 5245)) = v
    split
    · intro h
      exact ⟨_, _, rfl, of_decide_eq_true h⟩
    · intro h; simp at h
  · have h : (match view (rescaleWith [1033, 1069] 1 1 2 (constCt 1 [1033, 1049] 5245)) with
      | some (1, [1033], [a]) => decide (a ≠ 5)
      | _ => false) = true := by decide +kernel
    revert h
    generalize view (rescaleWith [1033, 1069] 1 1 2 (constCt 1 [1033, 1049] 5245)) = v
    split
    · intro h
      exact ⟨_, rfl, of_decide_eq_true h⟩
    · intro h; simp at h

/-- C86, violation: a kernel for three moduli, applied to its own result, does not raise; 5000 · 1069 becomes 5000 and
then, instead of 5 (that is 5000 divided by 1049), something else with both moduli kept. -/
theorem C86_reuse_wrong :
    ∃ a b, view (do let x ← rescaleWith [1033, 1049, 1069] 1 1 2 (constCt 1 [1033, 1049, 1069] 5345000)
                    rescaleWith [1033, 1049, 1069] 1 1 2 x) = some (2, [1033, 1049], [a, b]) ∧ a ≠ 5 ∧
      view (do let x ← rescaleWith [1033, 1049, 1069] 1 1 2 (constCt 1 [1033, 1049, 1069] 5345000)
               rescaleWith [1033, 1049] 1 1 2 x) = some (1, [1033], [5]) := by
  have h : (match view (do let x ← rescaleWith [1033, 1049, 1069] 1 1 2 (constCt 1 [1033, 1049, 1069] 5345000)
                           rescaleWith [1033, 1049, 1069] 1 1 2 x) with
    | some (2, [1033, 1049], [a, b]) => decide (a ≠ 5)
    | _ => false) = true := by decide +kernel
  have h2 : view (do let x ← rescaleWith [1033, 1049, 1069] 1 1 2 (constCt 1 [1033, 1049, 1069] 5345000)
                     rescaleWith [1033, 1049] 1 1 2 x) = some (1, [1033], [5]) := by decide +kernel
  revert h
  generalize view (do let x ← rescaleWith [1033, 1049, 1069] 1 1 2 (constCt 1 [1033, 1049, 1069] 5345000)
                      rescaleWith [1033, 1049, 1069] 1 1 2 x) = v
  split
  · intro h
    exact ⟨_, _, rfl, of_decide_eq_true h, h2⟩
  · intro h; simp at h

end Verif.Props
