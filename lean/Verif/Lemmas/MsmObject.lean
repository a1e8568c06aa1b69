import Verif.Model.MsmObject
import Verif.Lemmas.PippengerXyzz

/-!
# Histories of calls on the MSM objects
-/

namespace Verif.Pippenger

open Finset

variable {α β ι G : Type} [AddCommGroup G]

/-! ## Twisted classes -/

/-- One accumulation of the class adds the multi-scalar product of the prepared arrays. -/
def AccOk (R : α → G → Prop) (c : TwClass α ι) (k par : Nat) : Prop :=
  ∀ scalars points As i, c.prepare k par scalars points = .ok i → List.Forall₂ R points As →
    ∀ b g, RowsRel R (c.bucketNum k) (windowNum k * par) b g →
      ∃ h, RowsRel R (c.bucketNum k) (windowNum k * par) (c.accum k par i b) (fun r => g r + h r) ∧
        total k (windowNum k) par h = msmSpec (2 ^ (k * windowNum k)) scalars As

theorem accOk_plain {o : Ops α} {R : α → G → Prop} (ho : OpsOk o R) (k par : Nat) (hk : 0 < k) (hk' : k ≤ 32) :
    AccOk R (twPlain o) k par := by
  intro scalars points As i hi hp b g hb
  simp only [twPlain] at hi ⊢
  split_ifs at hi with hs
  cases hi
  exact msmTwisted_rows ho k par hk hk' b g hb scalars points As hp hs

theorem accOk_signed {o : Ops α} {R : α → G → Prop} (ho : OpsOk o R) (hneg : ∀ p A, R p A → R (o.pneg p) (-A))
    (k par : Nat) (hk : 0 < k) (hk' : k ≤ 32) : AccOk R (twSigned o) k par := by
  intro scalars points As i hi hp b g hb
  simp only [twSigned] at hi ⊢
  cases hss : baSelectionSigned k scalars with
  | error e => rw [hss] at hi; cases hi
  | ok ss =>
    rw [hss] at hi
    simp only [bind, Except.bind] at hi
    split_ifs at hi with hs
    cases hi
    exact msmTwistedSigned_rows ho hneg k par hk hk' b g hb scalars points As hp hs ss hss

/-- The calls are the same, on points that represent the group elements. -/
inductive CallRel (R : α → G → Prop) : MsmCall α → MsmCall G → Prop
  | init (scalars points As) (h : List.Forall₂ R points As) :
    CallRel R (.init scalars points) (.init scalars As)
  | accumulate : CallRel R .accumulate .accumulate
  | reduce : CallRel R .reduce .reduce
  | batch : CallRel R .batch .batch
  | merge : CallRel R .merge .merge

/-- The sum of the multi-scalar products, modulo `m`, of the inputs at each accumulation. -/
def spentMod (m : Int) : Option (List Int × List G) → List (MsmCall G) → G
  | _, [] => 0
  | _, .init s As :: cs => spentMod m (some (s, As)) cs
  | some (s, As), .accumulate :: cs => msmSpec m s As + spentMod m (some (s, As)) cs
  | cur, _ :: cs => spentMod m cur cs

theorem twRun_rows {o : Ops α} {R : α → G → Prop} {c : TwClass α ι} {k par : Nat} (hc : AccOk R c k par)
    (cs : List (MsmCall α)) (gs : List (MsmCall G)) (hcg : List.Forall₂ (CallRel R) cs gs) (s st : MsmState α ι)
    (hr : twRun o c k par s cs = .ok st) (cur : Option (List Int × List G)) (g : Nat → G)
    (hb : RowsRel R (c.bucketNum k) (windowNum k * par) s.buckets g)
    (hcur : ∀ i, s.input = some i → ∃ sc pts As, cur = some (sc, As) ∧ c.prepare k par sc pts = .ok i ∧
      List.Forall₂ R pts As) :
    ∃ g', RowsRel R (c.bucketNum k) (windowNum k * par) st.buckets g' ∧
      total k (windowNum k) par g' = total k (windowNum k) par g + spentMod (2 ^ (k * windowNum k)) cur gs := by
  induction hcg generalizing s cur g with
  | nil =>
    cases hr
    exact ⟨g, hb, by simp [spentMod]⟩
  | @cons call gcall cs gs hcall hrest ih =>
    unfold twRun at hr
    rw [List.foldlM_cons] at hr
    cases hst : twStep o c k par s call with
    | error e => rw [hst] at hr; cases hr
    | ok s1 =>
      rw [hst] at hr
      have hr' : twRun o c k par s1 cs = .ok st := hr
      cases hcall with
      | init sc pts As hp =>
        simp only [twStep] at hst
        cases hpr : c.prepare k par sc pts with
        | error e => rw [hpr] at hst; cases hst
        | ok i =>
          rw [hpr] at hst
          cases hst
          exact ih _ hr' (some (sc, As)) g hb (by
            intro i' hi'
            cases hi'
            exact ⟨sc, pts, As, rfl, hpr, hp⟩)
      | accumulate =>
        simp only [twStep] at hst
        cases hin : s.input with
        | none => rw [hin] at hst; cases hst
        | some i =>
          rw [hin] at hst
          cases hst
          obtain ⟨sc, pts, As, rfl, hpr, hp⟩ := hcur i hin
          obtain ⟨h, h1, h2⟩ := hc sc pts As i hpr hp _ _ hb
          obtain ⟨g', h3, h4⟩ := ih _ hr' (some (sc, As)) _ h1 (by
            intro i' hi'
            exact hcur i' (hin.trans hi'))
          exact ⟨g', h3, by rw [h4, total_add, h2, spentMod]; abel⟩
      | reduce =>
        cases hst
        obtain ⟨g', h3, h4⟩ := ih _ hr' cur g hb hcur
        refine ⟨g', h3, ?_⟩
        cases cur <;> exact h4
      | batch =>
        simp only [twStep] at hst
        cases hw : s.windowSum with
        | none => rw [hw] at hst; cases hst
        | some l =>
          rw [hw] at hst
          simp only at hst
          split_ifs at hst
          cases hst
          obtain ⟨g', h3, h4⟩ := ih _ hr' cur g hb hcur
          refine ⟨g', h3, ?_⟩
          cases cur <;> exact h4
      | merge =>
        simp only [twStep] at hst
        cases hw : s.windowSum with
        | none => rw [hw] at hst; cases hst
        | some l =>
          rw [hw] at hst
          simp only at hst
          split_ifs at hst
          cases hst
          obtain ⟨g', h3, h4⟩ := ih _ hr' cur g hb hcur
          refine ⟨g', h3, ?_⟩
          cases cur <;> exact h4

theorem length_batchSum (o : Ops α) (wn par : Nat) (sums : List α) (h : sums.length = wn * par) :
    (batchSum o wn par sums).length = wn := by
  unfold batchSum
  suffices H : ∀ m, m ≤ par → ((List.range m).foldl (fun acc j => List.zipWith o.padd acc (reshapeRow sums wn j))
      (List.replicate wn o.blank)).length = wn from H par le_rfl
  intro m
  induction m with
  | zero => simp
  | succ m ih =>
    intro hm
    rw [List.range_succ, List.foldl_append]
    simp only [List.foldl_cons, List.foldl_nil, List.length_zipWith]
    rw [ih (by omega), length_reshapeRow _ _ _ (by rw [h, Nat.mul_comm]; exact Nat.mul_le_mul_left _ hm), Nat.min_self]

/-- The last three calls. -/
theorem twRun_finish {o : Ops α} {R : α → G → Prop} (ho : OpsOk o R) (c : TwClass α ι) {k par nb : Nat} (hk : 0 < k)
    (s : MsmState α ι) (g : Nat → G) (hb : RowsRel R nb (windowNum k * par) s.buckets g) :
    ∃ st r, twRun o c k par s [.reduce, .batch, .merge] = .ok st ∧ st.result = some r ∧
      R r (total k (windowNum k) par g) := by
  have hl : (s.buckets.map (bucketReduce o)).length = windowNum k * par := by rw [List.length_map, hb.1]
  have hl' := length_batchSum o (windowNum k) par _ hl
  refine ⟨⟨s.buckets, s.input, some (batchSum o (windowNum k) par (s.buckets.map (bucketReduce o))),
    some (windowMerge o k (batchSum o (windowNum k) par (s.buckets.map (bucketReduce o))))⟩, _, ?_, rfl,
    finish_ok ho k _ _ _ _ _ hb (windowNum_pos k hk)⟩
  unfold twRun
  simp only [List.foldlM_cons, List.foldlM_nil, twStep, bind, Except.bind, pure, Except.pure]
  rw [if_pos hl]
  simp only
  rw [if_pos hl']

theorem twRun_append (o : Ops α) (c : TwClass α ι) (k par : Nat) (s st : MsmState α ι) (cs ds : List (MsmCall α))
    (h : twRun o c k par s cs = .ok st) : twRun o c k par s (cs ++ ds) = twRun o c k par st ds := by
  unfold twRun at *
  rw [List.foldlM_append, h]
  rfl

theorem twRunInts_append (c : TwClass (Verif.EcCurve.Quad (List Nat)) ι) (k par : Nat)
    (s st : MsmState (Verif.EcCurve.Quad (List Nat)) ι) (cs ds : List (MsmCall (Verif.EcCurve.Quad Nat)))
    (h : twRunInts c k par s cs = .ok st) : twRunInts c k par s (cs ++ ds) = twRunInts c k par st ds := by
  unfold twRunInts at *
  rw [List.foldlM_append, h]
  rfl

/-- A history with integer coordinates is one with packed coordinates. -/
theorem twRunInts_eq (c : TwClass (Verif.EcCurve.Quad (List Nat)) ι) (k par : Nat)
    (s : MsmState (Verif.EcCurve.Quad (List Nat)) ι) (cs : List (MsmCall (Verif.EcCurve.Quad Nat)))
    (ds : List (MsmCall (Verif.EcCurve.Quad (List Nat)))) (h : List.Forall₂ (fun a b => packCall a = .ok b) cs ds) :
    twRunInts c k par s cs = twRun lazyTwisted c k par s ds := by
  unfold twRunInts twRun
  induction h generalizing s with
  | nil => rfl
  | @cons a b cs ds hab _ ih =>
    rw [List.foldlM_cons, List.foldlM_cons, hab]
    simp only [bind, Except.bind]
    cases twStep lazyTwisted c k par s b with
    | error e => rfl
    | ok s1 => exact ih s1

/-- A complete run. -/
def job (j : List Int × List β) : List (MsmCall β) := [.init j.1 j.2, .accumulate, .reduce, .batch, .merge]

/-- A complete run does not raise when `initialize` does not. -/
theorem twRun_job (o : Ops α) (c : TwClass α ι) (k par : Nat) (hc : ∀ i b, (c.accum k par i b).length = b.length)
    (s : MsmState α ι) (hb : s.buckets.length = windowNum k * par) (sc : List Int) (pts : List α) (i : ι)
    (hi : c.prepare k par sc pts = .ok i) :
    ∃ st, twRun o c k par s (job (sc, pts)) = .ok st ∧ st.buckets.length = windowNum k * par := by
  have hl : ((c.accum k par i s.buckets).map (bucketReduce o)).length = windowNum k * par := by
    rw [List.length_map, hc, hb]
  have hl' := length_batchSum o (windowNum k) par _ hl
  refine ⟨⟨c.accum k par i s.buckets, some i, some (batchSum o (windowNum k) par
    ((c.accum k par i s.buckets).map (bucketReduce o))), some (windowMerge o k (batchSum o (windowNum k) par
    ((c.accum k par i s.buckets).map (bucketReduce o))))⟩, ?_, by rw [hc, hb]⟩
  unfold twRun job
  simp only [List.foldlM_cons, List.foldlM_nil, twStep, bind, Except.bind, pure, Except.pure, hi]
  rw [if_pos hl]
  simp only
  rw [if_pos hl']

/-- Nor does the first part of one. -/
theorem twRun_part (o : Ops α) (c : TwClass α ι) (k par : Nat)
    (s : MsmState α ι) (sc : List Int) (pts : List α) (i : ι) (hi : c.prepare k par sc pts = .ok i) :
    ∃ st, twRun o c k par s [.init sc pts, .accumulate] = .ok st := by
  unfold twRun
  simp only [List.foldlM_cons, List.foldlM_nil, twStep, bind, Except.bind, pure, Except.pure, hi]
  exact ⟨_, rfl⟩

theorem twRun_jobs (o : Ops α) (c : TwClass α ι) (k par : Nat) (hc : ∀ i b, (c.accum k par i b).length = b.length)
    (jobs : List (List Int × List α)) (hi : ∀ j ∈ jobs, ∃ i, c.prepare k par j.1 j.2 = .ok i)
    (s : MsmState α ι) (hb : s.buckets.length = windowNum k * par) :
    ∃ st, twRun o c k par s (jobs.flatMap job) = .ok st ∧ st.buckets.length = windowNum k * par := by
  induction jobs generalizing s with
  | nil => exact ⟨s, rfl, hb⟩
  | cons j jobs ih =>
    obtain ⟨i, h⟩ := hi j (by simp)
    obtain ⟨s1, h1, h2⟩ := twRun_job o c k par hc s hb j.1 j.2 i h
    rw [List.flatMap_cons, twRun_append o c k par s s1 _ _ h1]
    exact ih (fun j hj => hi j (by simp [hj])) s1 h2

theorem length_accumulate (o : Ops α) (wn par S : Nat) (b : List (List α)) (points : List α) (sel : List (List Nat)) :
    (bucketAccumulation o wn par S b points sel).length = b.length := by
  unfold bucketAccumulation
  induction List.range S generalizing b with
  | nil => rfl
  | cons i l ih => rw [List.foldl_cons, ih]; simp [baStep]

theorem length_accumulateSigned (o : Ops α) (wn par S : Nat) (b : List (List α)) (points : List α)
    (sel : List (List Nat)) (sgn : List (List Int)) :
    (bucketAccumulationSigned o wn par S b points sel sgn).length = b.length := by
  unfold bucketAccumulationSigned
  induction List.range S generalizing b with
  | nil => rfl
  | cons i l ih => rw [List.foldl_cons, ih]; simp [baStepSigned]

/-! ## XYZZ class -/

/-- `n` rows of `m` buckets. -/
def Shape (n m : Nat) (b : List (List α)) : Prop := b.length = n ∧ ∀ w, w < n → (b.getD w []).length = m

omit [AddCommGroup G] in
theorem Shape.xStep {o : Ops α} {n m : Nat} {b : List (List α)} (h : Shape n m b) (p : α) (sel : List Nat)
    (z : List (List Bool)) : Shape n m (xStep o b p sel z) := by
  unfold Pippenger.xStep
  refine ⟨by simpa using h.1, fun w hw => ?_⟩
  rw [List.getD_eq_getElem _ _ (by simp [h.1, hw]), List.getElem_map, List.getElem_range, List.length_set]
  exact h.2 w hw

omit [AddCommGroup G] in
theorem Shape.xAccumulate {o : Ops α} {n m : Nat} {b : List (List α)} (h : Shape n m b) (points : List α)
    (sel : List (List Nat)) (z : List (List (List Bool))) : Shape n m (xAccumulate o b points sel z) := by
  unfold Pippenger.xAccumulate
  induction List.range points.length generalizing b with
  | nil => exact h
  | cons i l ih => exact ih (h.xStep _ _ _)

theorem getD_set {β : Type} (l : List β) (t : Nat) (v : β) (x : Nat) (d : β) (hx : x < l.length) :
    (l.set t v).getD x d = if t = x then v else l.getD x d := by
  rw [List.getD_eq_getElem _ _ (by simpa using hx), List.getElem_set, List.getD_eq_getElem _ _ hx]

/-- The rows agree where the flag is clear. -/
def Agree (n m : Nat) (z : List (List Bool)) (d : α) (b b' : List (List α)) : Prop :=
  ∀ w, w < n → ∀ x, x < m → (z.getD w []).getD x true = false → (b.getD w []).getD x d = (b'.getD w []).getD x d

omit [AddCommGroup G] in
/-- What the buckets held before the accumulation does not matter. -/
theorem xAccumulate_agree (o : Ops α) (k : Nat) (scalars : List Int) (points : List α)
    (hlen : scalars.length = points.length) (b b' : List (List α)) (hb : Shape (windowNum k) (2 ^ k) b)
    (hb' : Shape (windowNum k) (2 ^ k) b') :
    Agree (windowNum k) (2 ^ k) ((zeroStates k scalars).getD scalars.length []) o.blank
      (xAccumulate o b points (xyzzSelection k scalars) ((zeroStates k scalars).take points.length))
      (xAccumulate o b' points (xyzzSelection k scalars) ((zeroStates k scalars).take points.length)) := by
  unfold xAccumulate
  rw [hlen]
  suffices H : ∀ i, i ≤ points.length →
      let f := fun b => (List.range i).foldl (fun b i => xStep o b (points.getD i o.blank) ((xyzzSelection k scalars).getD i [])
        (((zeroStates k scalars).take points.length).getD i [])) b
      Shape (windowNum k) (2 ^ k) (f b) ∧ Shape (windowNum k) (2 ^ k) (f b') ∧
      Agree (windowNum k) (2 ^ k) ((zeroStates k scalars).getD i []) o.blank (f b) (f b') from (H _ le_rfl).2.2
  intro i
  induction i with
  | zero =>
    intro _
    refine ⟨hb, hb', ?_⟩
    intro w hw x hx hz
    rw [zeroStates_zero] at hz
    simp [List.getD_eq_getElem?_getD, hw, hx] at hz
  | succ i ih =>
    intro hi
    obtain ⟨s1, s2, ag⟩ := ih (by omega)
    simp only at s1 s2 ag ⊢
    rw [List.range_succ, List.foldl_append, List.foldl_append]
    simp only [List.foldl_cons, List.foldl_nil]
    generalize (List.range i).foldl (fun b i => xStep o b (points.getD i o.blank) ((xyzzSelection k scalars).getD i [])
      (((zeroStates k scalars).take points.length).getD i [])) b = c at *
    generalize (List.range i).foldl (fun b i => xStep o b (points.getD i o.blank) ((xyzzSelection k scalars).getD i [])
      (((zeroStates k scalars).take points.length).getD i [])) b' = c' at *
    refine ⟨s1.xStep _ _ _, s2.xStep _ _ _, ?_⟩
    intro w hw x hx hz
    have hi' : i < scalars.length := by omega
    have hz0 : ((zeroStates k scalars).take points.length).getD i [] = (zeroStates k scalars).getD i [] := by
      rw [List.getD_eq_getElem?_getD, List.getElem?_take_of_lt (by omega), ← List.getD_eq_getElem?_getD]
    have hsel : ((xyzzSelection k scalars).getD i []).getD w 0 = (slice k (scalars.getD i 0) w).toNat := by
      simp [xyzzSelection, List.getD_eq_getElem?_getD, hi', hw]
    have hzl := ((zeroStates_spec k scalars i (by omega)).2 w hw).1
    have ht := slice_toNat_lt k (scalars.getD i 0) w
    have e : ∀ c : List (List α), Shape (windowNum k) (2 ^ k) c →
        (xStep o c (points.getD i o.blank) ((xyzzSelection k scalars).getD i [])
          (((zeroStates k scalars).take points.length).getD i [])).getD w [] =
        (c.getD w []).set (slice k (scalars.getD i 0) w).toNat (paddAlter o
          ((c.getD w []).getD (slice k (scalars.getD i 0) w).toNat o.blank) (points.getD i o.blank)
          ((((zeroStates k scalars).getD i []).getD w []).getD (slice k (scalars.getD i 0) w).toNat true)) := by
      intro c hc
      unfold xStep
      rw [List.getD_eq_getElem _ _ (by simp [hc.1, hw]), List.getElem_map, List.getElem_range, hz0, hsel]
      simp only [gather]
      rw [Nat.min_eq_left (by rw [hc.2 w hw]; omega), Nat.min_eq_left (by rw [hzl]; omega)]
    rw [e c s1, e c' s2]
    rw [zeroStates_succ k scalars i hi'] at hz
    unfold zeroStep at hz
    rw [List.getD_eq_getElem ((List.range (windowNum k)).map _) _ (by simpa using hw), List.getElem_map,
      List.getElem_range, ← List.getD_eq_getElem scalars 0 hi'] at hz
    generalize (slice k (scalars.getD i 0) w).toNat = t at *
    rw [getD_set _ _ _ _ _ (by rw [s1.2 w hw]; exact hx), getD_set _ _ _ _ _ (by rw [s2.2 w hw]; exact hx)]
    by_cases hxt : t = x
    · rw [if_pos hxt, if_pos hxt]
      unfold paddAlter
      cases hf : (((zeroStates k scalars).getD i []).getD w []).getD t true with
      | true => rfl
      | false =>
        simp only [Bool.false_eq_true, if_false]
        rw [ag w hw t ht hf]
    · rw [if_neg hxt, if_neg hxt]
      rw [getD_set _ _ _ _ _ (by rw [hzl]; exact hx), if_neg hxt] at hz
      exact ag w hw x hx hz

omit [AddCommGroup G] in
/-- The reduction reads only buckets whose flag is clear. -/
theorem xReduce_agree (o : Ops α) (n : Nat) (z : List Bool) (hz : z.length = n) (row row' : List α) (h1 : row.length = n)
    (h2 : row'.length = n) (h : ∀ x, x < n → z.getD x true = false → row.getD x o.blank = row'.getD x o.blank) :
    xReduce o row (brZero z) = xReduce o row' (brZero z) := by
  unfold xReduce
  rw [h1, h2]
  congr 1
  apply List.foldl_ext
  intro tw i hi
  have hi' : i < n - 1 := by simpa using hi
  have e1 : ∀ row : List α, row.length = n → row.reverse.getD i o.blank = row.getD (n - 1 - i) o.blank := by
    intro row h1
    rw [List.getD_eq_getElem _ _ (by rw [List.length_reverse]; omega), List.getElem_reverse,
      List.getD_eq_getElem _ _ (by omega)]
    congr 1
    omega
  have e2 : (brZero z).1.getD i true = z.getD (n - 1 - i) true := by
    unfold brZero
    rw [List.getD_eq_getElem _ _ (by rw [List.length_reverse]; omega), List.getElem_reverse,
      List.getD_eq_getElem _ _ (by omega)]
    congr 1
    omega
  have : paddZero o tw.1 (row.reverse.getD i o.blank) ((brZero z).2.1.getD i true) ((brZero z).1.getD i true) =
      paddZero o tw.1 (row'.reverse.getD i o.blank) ((brZero z).2.1.getD i true) ((brZero z).1.getD i true) := by
    rw [e1 row h1, e1 row' h2, e2]
    cases hf : z.getD (n - 1 - i) true with
    | true => simp [paddZero]
    | false => rw [h _ (by omega) hf]
  simp only [this]

omit [AddCommGroup G] in
theorem xRun_append (o : Ops α) (k : Nat) (s st : MsmState α (XInput α)) (cs ds : List (MsmCall α))
    (h : xRun o k s cs = .ok st) : xRun o k s (cs ++ ds) = xRun o k st ds := by
  unfold xRun at *
  rw [List.foldlM_append, h]
  rfl

omit [AddCommGroup G] in
theorem xRun_shape (o : Ops α) (k : Nat) (n m : Nat) (cs : List (MsmCall α)) (s st : MsmState α (XInput α))
    (hs : Shape n m s.buckets) (h : xRun o k s cs = .ok st) : Shape n m st.buckets := by
  induction cs generalizing s with
  | nil => cases h; exact hs
  | cons call cs ih =>
    unfold xRun at h
    rw [List.foldlM_cons] at h
    cases hst : xCall o k s call with
    | error e => rw [hst] at h; cases h
    | ok s1 =>
      rw [hst] at h
      refine ih s1 ?_ h
      cases call with
      | init sc pts =>
        simp only [xCall] at hst
        cases hp : xPrepare k sc pts with
        | error e => rw [hp] at hst; cases hst
        | ok i => rw [hp] at hst; cases hst; exact hs
      | accumulate =>
        simp only [xCall] at hst
        cases hi : s.input with
        | none => rw [hi] at hst; cases hst
        | some i => rw [hi] at hst; cases hst; exact hs.xAccumulate _ _ _
      | reduce =>
        simp only [xCall] at hst
        cases hi : s.input with
        | none => rw [hi] at hst; cases hst
        | some i => rw [hi] at hst; cases hst; exact hs
      | batch => cases hst
      | merge =>
        simp only [xCall] at hst
        cases hi : s.windowSum with
        | none => rw [hi] at hst; cases hst
        | some i => rw [hi] at hst; cases hst; exact hs

/-- The state after the last `initialize`: its arrays, and buckets that agree with those of a fresh object if there was
an accumulation. -/
def XAfter (o : Ops α) (k : Nat) (sc : List Int) (pts : List α) (acc : Prop) (s : MsmState α (XInput α)) : Prop :=
  Shape (windowNum k) (2 ^ k) s.buckets ∧
  s.input = some ⟨pts, xyzzSelection k sc, (zeroStates k sc).take pts.length,
    ((zeroStates k sc).getD ((zeroStates k sc).length - 1) []).map brZero⟩ ∧
  (acc → Agree (windowNum k) (2 ^ k) ((zeroStates k sc).getD sc.length []) o.blank s.buckets
    (xAccumulate o (List.replicate (windowNum k) (List.replicate (2 ^ k) o.blank)) pts (xyzzSelection k sc)
      ((zeroStates k sc).take pts.length)))

omit [AddCommGroup G] in
theorem Shape.blank (n m : Nat) (d : α) : Shape n m (List.replicate n (List.replicate m d)) := by
  refine ⟨by simp, fun w hw => ?_⟩
  rw [List.getD_eq_getElem _ _ (by simpa using hw), List.getElem_replicate, List.length_replicate]

omit [AddCommGroup G] in
theorem xRun_after (o : Ops α) (k : Nat) (sc : List Int) (pts : List α) (hlen : sc.length = pts.length)
    (mid : List (MsmCall α)) (hmid : ∀ a b, MsmCall.init a b ∉ mid) (acc : Prop) (s st : MsmState α (XInput α))
    (hs : XAfter o k sc pts acc s) (h : xRun o k s mid = .ok st) :
    XAfter o k sc pts (acc ∨ MsmCall.accumulate ∈ mid) st := by
  induction mid generalizing s acc with
  | nil =>
    cases h
    simpa using hs
  | cons call mid ih =>
    unfold xRun at h
    rw [List.foldlM_cons] at h
    cases hst : xCall o k s call with
    | error e => rw [hst] at h; cases h
    | ok s1 =>
      rw [hst] at h
      have key : ∀ acc', XAfter o k sc pts acc' s1 → (acc ∨ call = MsmCall.accumulate → acc') →
          XAfter o k sc pts (acc ∨ MsmCall.accumulate ∈ call :: mid) st := by
        intro acc' h1 h2
        obtain ⟨a, b, c⟩ := ih (fun a b hab => hmid a b (by simp [hab])) acc' s1 h1 h
        refine ⟨a, b, fun hh => c ?_⟩
        rcases hh with hh | hh
        · exact Or.inl (h2 (Or.inl hh))
        · rcases List.mem_cons.mp hh with hh | hh
          · exact Or.inl (h2 (Or.inr hh.symm))
          · exact Or.inr hh
      obtain ⟨a, b, c⟩ := hs
      cases call with
      | init x y => exact absurd (by simp) (hmid x y)
      | accumulate =>
        simp only [xCall, b] at hst
        cases hst
        refine key True ⟨a.xAccumulate _ _ _, by simp, fun _ => ?_⟩ (fun _ => trivial)
        exact xAccumulate_agree o k sc pts hlen _ _ a (Shape.blank _ _ _)
      | reduce =>
        simp only [xCall, b] at hst
        cases hst
        exact key acc ⟨a, by simp, c⟩ (by rintro (h | h); exacts [h, by cases h])
      | batch => cases hst
      | merge =>
        simp only [xCall] at hst
        cases hi : s.windowSum with
        | none => rw [hi] at hst; cases hst
        | some i =>
          rw [hi] at hst
          cases hst
          exact key acc ⟨a, b, c⟩ (by rintro (h | h); exacts [h, by cases h])

omit [AddCommGroup G] in
/-- The reduction and the merge after the last `initialize` give the result of a fresh object. -/
theorem xRun_finish (o : Ops α) (k : Nat) (sc : List Int) (pts : List α) (hs : shapesOk 1 pts.length sc.length)
    (acc : Prop) (ha : acc) (s : MsmState α (XInput α)) (h : XAfter o k sc pts acc s) :
    ∃ st r, xRun o k s [.reduce, .merge] = .ok st ∧ st.result = some r ∧ msmXyzz o k sc pts = .ok r := by
  obtain ⟨a, b, c⟩ := h
  have c := c ha
  have hl := zeroStates_length k sc
  have hsp := zeroStates_spec k sc sc.length le_rfl
  unfold xRun
  simp only [List.foldlM_cons, List.foldlM_nil, xCall, bind, Except.bind, pure, Except.pure, b]
  refine ⟨_, _, rfl, rfl, ?_⟩
  unfold msmXyzz
  rw [if_pos hs]
  simp only
  have hsh := (Shape.blank (windowNum k) (2 ^ k) o.blank).xAccumulate (o := o) pts (xyzzSelection k sc)
    ((zeroStates k sc).take pts.length)
  rw [hl, Nat.add_sub_cancel, a.1, hsh.1]
  congr 2
  apply List.map_congr_left
  intro w hw
  have hw' : w < windowNum k := by simpa using hw
  rw [List.getD_eq_getElem (((zeroStates k sc).getD sc.length []).map brZero) _ (by rw [List.length_map, hsp.1]; exact hw'),
    List.getElem_map, ← List.getD_eq_getElem _ [] (by rw [hsp.1]; exact hw')]
  refine (xReduce_agree o (2 ^ k) _ (hsp.2 w hw').1 _ _ (a.2 w hw') (hsh.2 w hw') ?_).symm
  intro x hx hz
  exact c w hw' x hx hz

end Verif.Pippenger
