import Verif.Lemmas.MsmObject
import Verif.Props.Pippenger

/-!
# C81: using an MSM object more than once

Specification: `∑ i, k_i • A_i` for the scalars and points of the last `initialize`.  `MSMPippenger` meets it for every
history.  The two twisted classes never clear `all_buckets`: their result is the sum over all earlier accumulations.
-/

namespace Verif.Props

open Verif.EcCurve Verif.EcChunks Verif.Pippenger Finset

/-- The calls are the same, with integer coordinates of the group elements and scalars in the range of the slices. -/
inductive IntCall (k : Nat) : MsmCall (Quad Nat) → MsmCall (W1 : WeierstrassCurve.Affine (ZMod P)).Point → Prop
  | init (scalars points As) (h : List.Forall₂ (fun q A => OddPt A ∧ ∃ u, IRep q u ∧ ERep blsTwist u A) points As)
    (hs : ∀ c ∈ scalars, 0 ≤ c ∧ c < 2 ^ (k * windowNum k)) : IntCall k (.init scalars points) (.init scalars As)
  | accumulate : IntCall k .accumulate .accumulate
  | reduce : IntCall k .reduce .reduce
  | batch : IntCall k .batch .batch
  | merge : IntCall k .merge .merge

/-- `∑ k_i A_i`. -/
def msmSum {G : Type} [AddCommGroup G] (scalars : List Int) (As : List G) : G :=
  ((scalars.zip As).map fun q => q.1 • q.2).sum

/-- The sum of the multi-scalar products of the inputs at each accumulation. -/
def spent {G : Type} [AddCommGroup G] : Option (List Int × List G) → List (MsmCall G) → G
  | _, [] => 0
  | _, .init s As :: cs => spent (some (s, As)) cs
  | some (s, As), .accumulate :: cs => msmSum s As + spent (some (s, As)) cs
  | cur, _ :: cs => spent cur cs

theorem msmSpec_sum {G : Type} [AddCommGroup G] (m : Int) (cs : List Int) (As : List G) (hc : ∀ c ∈ cs, 0 ≤ c ∧ c < m) :
    msmSpec m cs As = msmSum cs As := by
  unfold msmSum
  induction cs generalizing As with
  | nil => rfl
  | cons c cs ih =>
    cases As with
    | nil => rfl
    | cons A As =>
      have h := hc c (by simp)
      rw [msmSpec, ih As (fun c hc' => hc c (by simp [hc'])), Int.emod_eq_of_lt h.1 h.2]
      simp

theorem spentMod_eq (k : Nat) (cs : List (MsmCall (Quad Nat)))
    (gs : List (MsmCall (W1 : WeierstrassCurve.Affine (ZMod P)).Point)) (h : List.Forall₂ (IntCall k) cs gs)
    (cur : Option (List Int × List (W1 : WeierstrassCurve.Affine (ZMod P)).Point))
    (hcur : ∀ p, cur = some p → ∀ c ∈ p.1, 0 ≤ c ∧ c < 2 ^ (k * windowNum k)) :
    spentMod (2 ^ (k * windowNum k)) cur gs = spent cur gs := by
  induction h generalizing cur with
  | nil => cases cur <;> rfl
  | cons hc _ ih =>
    cases hc with
    | init sc pts As hp hs =>
      rw [spentMod, spent]
      exact ih _ (by rintro p ⟨⟩; exact hs)
    | accumulate =>
      cases cur with
      | none => exact ih _ hcur
      | some p =>
        rw [spentMod, spent, ih _ hcur, msmSpec_sum _ _ _ (hcur p rfl)]
    | reduce => cases cur <;> exact ih _ hcur
    | batch => cases cur <;> exact ih _ hcur
    | merge => cases cur <;> exact ih _ hcur

/-- Every call can be packed. -/
theorem packCalls (k : Nat) (cs : List (MsmCall (Quad Nat)))
    (gs : List (MsmCall (W1 : WeierstrassCurve.Affine (ZMod P)).Point)) (h : List.Forall₂ (IntCall k) cs gs) :
    ∃ ds, List.Forall₂ (fun a b => packCall a = .ok b) cs ds ∧ List.Forall₂ (CallRel LTRep) ds gs := by
  induction h with
  | nil => exact ⟨[], .nil, .nil⟩
  | cons hc _ ih =>
    obtain ⟨ds, h1, h2⟩ := ih
    cases hc with
    | init sc pts As hp hs =>
      obtain ⟨l, e, hf⟩ := mapM_packPoint pts As hp
      exact ⟨.init sc l :: ds, .cons (by simp only [packCall, e]; rfl) h1, .cons (.init _ _ _ hf) h2⟩
    | accumulate => exact ⟨.accumulate :: ds, .cons rfl h1, .cons .accumulate h2⟩
    | reduce => exact ⟨.reduce :: ds, .cons rfl h1, .cons .reduce h2⟩
    | batch => exact ⟨.batch :: ds, .cons rfl h1, .cons .batch h2⟩
    | merge => exact ⟨.merge :: ds, .cons rfl h1, .cons .merge h2⟩

theorem history {ι : Type} (c : TwClass (Quad (List Nat)) ι) (k par : Nat) (hk : 0 < k)
    (hc : AccOk LTRep c k par) (hnb : RowsRel LTRep (c.bucketNum k) (windowNum k * par)
      (twNew lazyTwisted c k par).buckets (fun _ => 0))
    (cs : List (MsmCall (Quad Nat))) (gs : List (MsmCall (W1 : WeierstrassCurve.Affine (ZMod P)).Point))
    (h : List.Forall₂ (IntCall k) cs gs) (st : MsmState (Quad (List Nat)) ι)
    (hr : twRunInts c k par (twNew lazyTwisted c k par) cs = .ok st) :
    ∃ st' r u, twRunInts c k par (twNew lazyTwisted c k par) (cs ++ [.reduce, .batch, .merge]) = .ok st' ∧
      st'.result = some r ∧ IRep (unpackPoint r) u ∧ ERep blsTwist u (spent none gs) ∧ OddPt (spent none gs) := by
  obtain ⟨ds, h1, h2⟩ := packCalls k cs gs h
  have hr' := hr
  rw [twRunInts_eq c k par _ cs ds h1] at hr'
  obtain ⟨g, h3, h4⟩ := twRun_rows hc ds gs h2 _ st hr' none _ hnb (by intro i hi; cases hi)
  rw [total_zero, zero_add, spentMod_eq k cs gs h none (by rintro p ⟨⟩)] at h4
  obtain ⟨st', r, e, e', hR⟩ := twRun_finish lazyTwisted_ok c hk st g h3
  rw [h4] at hR
  obtain ⟨hodd, u, hu, hU⟩ := hR
  refine ⟨st', r, u, ?_, e', unpackPoint_rep hu, hU, hodd⟩
  rw [twRunInts_append _ _ _ _ _ _ _ hr, twRunInts_eq c k par _ _ [.reduce, .batch, .merge]
    (.cons rfl (.cons rfl (.cons rfl .nil)))]
  exact e

/-- C81 (what `MSMPippengerTwisted` does): after any history of calls that did not raise, `bucket_reduction`,
`batch_window_summation`, `window_merge` leave in `result` coordinates of the sum of the multi-scalar products of all the
inputs accumulated so far, not only of the last. -/
theorem C81_twisted_partial (k par : Nat) (hk : 0 < k) (hk' : k ≤ 32) (cs : List (MsmCall (Quad Nat)))
    (gs : List (MsmCall (W1 : WeierstrassCurve.Affine (ZMod P)).Point)) (h : List.Forall₂ (IntCall k) cs gs)
    (st : MsmState (Quad (List Nat)) _)
    (hr : twRunInts (twPlain lazyTwisted) k par (twNew lazyTwisted (twPlain lazyTwisted) k par) cs = .ok st) :
    ∃ st' r u, twRunInts (twPlain lazyTwisted) k par (twNew lazyTwisted (twPlain lazyTwisted) k par)
        (cs ++ [.reduce, .batch, .merge]) = .ok st' ∧
      st'.result = some r ∧ IRep (unpackPoint r) u ∧ ERep blsTwist u (spent none gs) ∧ OddPt (spent none gs) :=
  history _ k par hk (accOk_plain lazyTwisted_ok k par hk hk') (RowsRel.blank lazyTwisted_ok _ _) cs gs h st hr

/-- The same for `MSMPippengerTwistedSigned`. -/
theorem C81_signed_partial (k par : Nat) (hk : 0 < k) (hk' : k ≤ 32) (cs : List (MsmCall (Quad Nat)))
    (gs : List (MsmCall (W1 : WeierstrassCurve.Affine (ZMod P)).Point)) (h : List.Forall₂ (IntCall k) cs gs)
    (st : MsmState (Quad (List Nat)) _)
    (hr : twRunInts (twSigned lazyTwisted) k par (twNew lazyTwisted (twSigned lazyTwisted) k par) cs = .ok st) :
    ∃ st' r u, twRunInts (twSigned lazyTwisted) k par (twNew lazyTwisted (twSigned lazyTwisted) k par)
        (cs ++ [.reduce, .batch, .merge]) = .ok st' ∧
      st'.result = some r ∧ IRep (unpackPoint r) u ∧ ERep blsTwist u (spent none gs) ∧ OddPt (spent none gs) :=
  history _ k par hk (accOk_signed lazyTwisted_ok lazyTwisted_neg k par hk hk') (RowsRel.blank lazyTwisted_ok _ _) cs gs h
    st hr

/-- Integer inputs of a complete run, the group elements, and `initialize` accepts them. -/
def JobOk {ι : Type} (c : TwClass (Quad (List Nat)) ι) (k par : Nat) (j : List Int × List (Quad Nat))
    (g : List Int × List (W1 : WeierstrassCurve.Affine (ZMod P)).Point) : Prop :=
  IntCall k (.init j.1 j.2) (.init g.1 g.2) ∧ ∃ pts i, j.2.mapM packPoint = .ok pts ∧ c.prepare k par j.1 pts = .ok i

theorem packJobs {ι : Type} (c : TwClass (Quad (List Nat)) ι) (k par : Nat) (jobs : List (List Int × List (Quad Nat)))
    (gjobs : List (List Int × List (W1 : WeierstrassCurve.Affine (ZMod P)).Point))
    (h : List.Forall₂ (JobOk c k par) jobs gjobs) :
    List.Forall₂ (IntCall k) (jobs.flatMap job) (gjobs.flatMap job) ∧
    ∃ ds : List (List Int × List (Quad (List Nat))), (∀ j ∈ ds, ∃ i, c.prepare k par j.1 j.2 = .ok i) ∧
      List.Forall₂ (fun a b => packCall a = .ok b) (jobs.flatMap job) (ds.flatMap job) := by
  induction h with
  | nil => exact ⟨.nil, [], by simp, .nil⟩
  | @cons j g jobs gjobs hj _ ih =>
    obtain ⟨h1, pts, i, h2, h3⟩ := hj
    obtain ⟨h4, ds, h5, h6⟩ := ih
    refine ⟨.cons h1 (.cons .accumulate (.cons .reduce (.cons .batch (.cons .merge h4)))), (j.1, pts) :: ds, ?_, ?_⟩
    · intro d hd
      rcases List.mem_cons.mp hd with rfl | hd
      · exact ⟨i, h3⟩
      · exact h5 d hd
    · exact .cons (by simp only [packCall, h2]; rfl) (.cons rfl (.cons rfl (.cons rfl (.cons rfl h6))))

theorem spent_jobs {G : Type} [AddCommGroup G] (cur : Option (List Int × List G)) (jobs : List (List Int × List G))
    (cs : List (MsmCall G)) :
    ∃ cur', spent cur (jobs.flatMap job ++ cs) = (jobs.map fun j => msmSum j.1 j.2).sum + spent cur' cs := by
  induction jobs generalizing cur with
  | nil => exact ⟨cur, by simp⟩
  | cons j jobs ih =>
    obtain ⟨cur', e⟩ := ih (some j)
    refine ⟨cur', ?_⟩
    rw [List.flatMap_cons]
    simp only [job, List.cons_append, List.nil_append, spent, List.map_cons, List.sum_cons]
    rw [e, add_assoc]

theorem forall₂_concat {β γ : Type} {R : β → γ → Prop} (js : List β) (j : β) (l : List γ)
    (h : List.Forall₂ R (js ++ [j]) l) : ∃ gs g, l = gs ++ [g] ∧ List.Forall₂ R js gs ∧ R j g := by
  induction js generalizing l with
  | nil =>
    cases h with
    | @cons _ g _ _ hj hn =>
      cases hn
      exact ⟨[], g, rfl, .nil, hj⟩
  | cons x js ih =>
    cases h with
    | @cons _ y _ l hx hn =>
      obtain ⟨gs, g, rfl, h1, h2⟩ := ih l hn
      exact ⟨y :: gs, g, rfl, .cons hx h1, h2⟩

theorem jobs_sum {ι : Type} (c : TwClass (Quad (List Nat)) ι) (k par : Nat) (hk : 0 < k)
    (hc : AccOk LTRep c k par) (hlen : ∀ i b, (c.accum k par i b).length = b.length)
    (jobs : List (List Int × List (Quad Nat)))
    (gjobs : List (List Int × List (W1 : WeierstrassCurve.Affine (ZMod P)).Point))
    (h : List.Forall₂ (JobOk c k par) jobs gjobs) (hne : jobs ≠ []) :
    ∃ st r u, twRunInts c k par (twNew lazyTwisted c k par) (jobs.flatMap job) = .ok st ∧ st.result = some r ∧
      IRep (unpackPoint r) u ∧ ERep blsTwist u ((gjobs.map fun j => msmSum j.1 j.2).sum) ∧
      OddPt ((gjobs.map fun j => msmSum j.1 j.2).sum) := by
  obtain ⟨js, j, rfl⟩ : ∃ js j, jobs = js ++ [j] := ⟨_, _, (List.dropLast_concat_getLast hne).symm⟩
  obtain ⟨gs, g, rfl, h1, hj⟩ := forall₂_concat js j gjobs h
  obtain ⟨a1, ds, a2, a3⟩ := packJobs c k par js gs h1
  obtain ⟨b1, pts, i, b2, b3⟩ := hj
  have hbl : (twNew lazyTwisted c k par).buckets.length = windowNum k * par := by simp [twNew]
  obtain ⟨st, e1, e2⟩ := twRun_jobs lazyTwisted c k par hlen ds a2 _ hbl
  obtain ⟨st1, e3⟩ := twRun_part lazyTwisted c k par st j.1 pts i b3
  have e4 : twRunInts c k par (twNew lazyTwisted c k par) (js.flatMap job ++ [.init j.1 j.2, .accumulate]) = .ok st1 := by
    rw [twRunInts_append c k par _ st _ _ (by rw [twRunInts_eq c k par _ _ _ a3]; exact e1),
      twRunInts_eq c k par _ _ [.init j.1 pts, .accumulate]
        (.cons (by simp only [packCall, b2]; rfl) (.cons rfl .nil))]
    exact e3
  obtain ⟨st', r, u, f1, f2, f3, f4, f5⟩ := history c k par hk hc (RowsRel.blank lazyTwisted_ok _ _)
    (js.flatMap job ++ [.init j.1 j.2, .accumulate]) (gs.flatMap job ++ [.init g.1 g.2, .accumulate])
    (List.rel_append a1 (.cons b1 (.cons .accumulate .nil))) st1 e4
  obtain ⟨cur', e⟩ := spent_jobs none gs [.init g.1 g.2, .accumulate]
  rw [e] at f4 f5
  simp only [spent, add_zero] at f4 f5
  refine ⟨st', r, u, ?_, f2, f3, ?_, ?_⟩
  · rw [← f1, List.flatMap_append, List.append_assoc]
    rfl
  · simpa using f4
  · simpa using f5

/-- C81 (`MSMPippengerTwisted`): complete runs on one object, one after the other; the last result is the sum of all the
multi-scalar products. -/
theorem C81_twisted_runs (k par : Nat) (hk : 0 < k) (hk' : k ≤ 32) (jobs : List (List Int × List (Quad Nat)))
    (gjobs : List (List Int × List (W1 : WeierstrassCurve.Affine (ZMod P)).Point))
    (h : List.Forall₂ (JobOk (twPlain lazyTwisted) k par) jobs gjobs) (hne : jobs ≠ []) :
    ∃ st r u, twRunInts (twPlain lazyTwisted) k par (twNew lazyTwisted (twPlain lazyTwisted) k par) (jobs.flatMap job) =
        .ok st ∧ st.result = some r ∧
      IRep (unpackPoint r) u ∧ ERep blsTwist u ((gjobs.map fun j => msmSum j.1 j.2).sum) ∧
      OddPt ((gjobs.map fun j => msmSum j.1 j.2).sum) :=
  jobs_sum _ k par hk (accOk_plain lazyTwisted_ok k par hk hk') (fun _ _ => length_accumulate _ _ _ _ _ _ _) jobs gjobs h
    hne

/-- The same for `MSMPippengerTwistedSigned`. -/
theorem C81_signed_runs (k par : Nat) (hk : 0 < k) (hk' : k ≤ 32) (jobs : List (List Int × List (Quad Nat)))
    (gjobs : List (List Int × List (W1 : WeierstrassCurve.Affine (ZMod P)).Point))
    (h : List.Forall₂ (JobOk (twSigned lazyTwisted) k par) jobs gjobs) (hne : jobs ≠ []) :
    ∃ st r u, twRunInts (twSigned lazyTwisted) k par (twNew lazyTwisted (twSigned lazyTwisted) k par) (jobs.flatMap job) =
        .ok st ∧ st.result = some r ∧
      IRep (unpackPoint r) u ∧ ERep blsTwist u ((gjobs.map fun j => msmSum j.1 j.2).sum) ∧
      OddPt ((gjobs.map fun j => msmSum j.1 j.2).sum) :=
  jobs_sum _ k par hk (accOk_signed lazyTwisted_ok lazyTwisted_neg k par hk hk')
    (fun _ _ => length_accumulateSigned _ _ _ _ _ _ _ _) jobs gjobs h hne

/-! ## MSMPippenger -/

/-- C81 (`MSMPippenger`, for either point arithmetic): whatever happened on the object before, the result of
`initialize`, any further calls among them `bucket_accumulation` (once or more often), `bucket_reduction` and
`window_merge` is that of a fresh object, bit for bit. -/
theorem C81_xyzz {α : Type} (o : Ops α) (k : Nat) (before mid : List (MsmCall α)) (scalars : List Int) (points : List α)
    (hmid : ∀ a b, MsmCall.init a b ∉ mid) (hacc : MsmCall.accumulate ∈ mid) (st : MsmState α (XInput α))
    (h : xRun o k (xNew o k) (before ++ .init scalars points :: mid ++ [.reduce, .merge]) = .ok st) :
    ∃ r, st.result = some r ∧ msmXyzz o k scalars points = .ok r := by
  have hcut : ∀ (s t : MsmState α (XInput α)) (cs ds : List (MsmCall α)), xRun o k s (cs ++ ds) = .ok t →
      ∃ m, xRun o k s cs = .ok m ∧ xRun o k m ds = .ok t := by
    intro s t cs ds hst
    unfold xRun at hst ⊢
    rw [List.foldlM_append] at hst
    cases hm : cs.foldlM (xCall o k) s with
    | error e => rw [hm] at hst; cases hst
    | ok m => rw [hm] at hst; exact ⟨m, rfl, hst⟩
  obtain ⟨s2, h2, h3⟩ := hcut _ _ _ _ h
  obtain ⟨s1, h4, h5⟩ := hcut _ _ _ _ h2
  have hsh := xRun_shape o k (windowNum k) (2 ^ k) before _ s1 (Shape.blank _ _ _) h4
  obtain ⟨s0, h6, h7⟩ := hcut s1 s2 [.init scalars points] mid h5
  unfold xRun at h6
  simp only [List.foldlM_cons, List.foldlM_nil, xCall, xPrepare] at h6
  by_cases hs : shapesOk 1 points.length scalars.length = true
  · rw [if_pos hs] at h6
    cases h6
    have hlen : scalars.length = points.length := by
      simp only [shapesOk, Bool.and_eq_true, beq_iff_eq] at hs
      exact hs.2.symm
    have ha := xRun_after o k scalars points hlen mid hmid False _ s2 (by exact ⟨hsh, rfl, False.elim⟩) h7
    obtain ⟨st', r, e1, e2, e3⟩ := xRun_finish o k scalars points hs _ (Or.inr hacc) s2 ha
    rw [h3, Except.ok.injEq] at e1
    subst e1
    exact ⟨r, e2, e3⟩
  · rw [if_neg hs] at h6
    cases h6

/-- The calls do not raise: after any history, a complete run with as many scalars as points, and at least one, ends
with the result of a fresh object. -/
theorem C81_xyzz_runs {α : Type} (o : Ops α) (k : Nat) (before : List (MsmCall α)) (st : MsmState α (XInput α))
    (h : xRun o k (xNew o k) before = .ok st) (scalars : List Int) (points : List α) (h0 : points ≠ [])
    (hlen : scalars.length = points.length) :
    ∃ st' r, xRun o k (xNew o k) (before ++ [.init scalars points, .accumulate, .reduce, .merge]) = .ok st' ∧
      st'.result = some r ∧ msmXyzz o k scalars points = .ok r := by
  have hs : shapesOk 1 points.length scalars.length = true := by
    have : points.length ≠ 0 := by simpa using h0
    simp [shapesOk, hlen, this, Nat.mod_one]
  have hrun : ∃ st', xRun o k (xNew o k) (before ++ [.init scalars points, .accumulate, .reduce, .merge]) = .ok st' := by
    rw [xRun_append o k _ st _ _ h]
    unfold xRun
    simp only [List.foldlM_cons, List.foldlM_nil, xCall, xPrepare, if_pos hs, bind, Except.bind, pure, Except.pure]
    exact ⟨_, rfl⟩
  obtain ⟨st', h'⟩ := hrun
  obtain ⟨r, e1, e2⟩ := C81_xyzz o k before [.accumulate] scalars points (by simp) (by simp) st' (by simpa using h')
  exact ⟨st', r, h', e1, e2⟩

/-! ## Reuse of the twisted classes is wrong -/

theorem reuse_false {ι : Type} (c : TwClass (Quad (List Nat)) ι) (hc : AccOk LTRep c 4 1)
    (hlen : ∀ i b, (c.accum 4 1 i b).length = b.length) (hp : ∀ p, ∃ i, c.prepare 4 1 [1] [p] = .ok i) :
    ∃ (q : Quad Nat) (A : (W1 : WeierstrassCurve.Affine (ZMod P)).Point), JobOk c 4 1 ([1], [q]) ([1], [A]) ∧
      ∃ st r u, twRunInts c 4 1 (twNew lazyTwisted c 4 1) (job ([1], [q]) ++ job ([1], [q])) = .ok st ∧
        st.result = some r ∧ IRep (unpackPoint r) u ∧ ¬ ERep blsTwist u (msmSum [1] [A]) := by
  obtain ⟨G, hG, -, h⟩ := C59_subgroup
  have h1 := h 1
  rw [one_nsmul] at h1
  have hpos : 0 < P := P_pos
  have : NeZero P := ⟨hpos.ne'⟩
  have hv : ∀ z : ZMod P, z.val ≤ 2 ^ 16 * P := fun z => by have := ZMod.val_lt z; omega
  have hT := C65_twist_int_coordinates blsTwist C59_constants _ _ G hG h1
  generalize twistIntCoordinates (F := ZMod P) blsTwist _ = t at hT
  have hq : OddPt G ∧ ∃ u, IRep (t.1.val, t.2.1.val, t.2.2.1.val, t.2.2.2.val) u ∧ ERep blsTwist u G :=
    ⟨h1, t, ⟨⟨hv _, hv _, hv _, hv _⟩, by simp only [ZMod.natCast_zmod_val]⟩, hT⟩
  generalize (t.1.val, t.2.1.val, t.2.2.1.val, t.2.2.2.val) = q at hq
  obtain ⟨pts, e, hf⟩ := mapM_packPoint [q] [G] (.cons hq .nil)
  have hj : JobOk c 4 1 ([1], [q]) ([1], [G]) := by
    refine ⟨.init _ _ _ (.cons hq .nil) ?_, ?_⟩
    · intro c hc
      have : (2 : Int) ^ 4 ≤ 2 ^ (4 * windowNum 4) := pow_le_pow_right₀ (by norm_num) (by decide)
      simp at hc
      omega
    · cases hf with
      | cons _ hn =>
        cases hn
        obtain ⟨i, hi⟩ := hp _
        exact ⟨_, i, e, hi⟩
  obtain ⟨st, r, u, e1, e2, e3, e4, e5⟩ := jobs_sum c 4 1 (by norm_num) hc hlen [([1], [q]), ([1], [q])]
    [([1], [G]), ([1], [G])] (.cons hj (.cons hj .nil)) (by simp)
  refine ⟨q, G, hj, st, r, u, by simpa using e1, e2, e3, ?_⟩
  intro hcon
  have hs : msmSum [1] [G] = G := by simp [msmSum]
  rw [hs] at hcon
  simp only [List.map_cons, List.map_nil, List.sum_cons, List.sum_nil, add_zero, hs] at e4 e5
  have := C59_faithful blsTwist C59_constants u u G (G + G) h1 e5 hcon e4 rfl rfl
  exact hG.ne_zero (by simpa using this)

/-- C81 is false for `MSMPippengerTwisted`: the second of two identical runs on one object does not return coordinates of
the multi-scalar product. -/
theorem C81_twisted_reuse_false :
    ∃ (q : Quad Nat) (A : (W1 : WeierstrassCurve.Affine (ZMod P)).Point),
      JobOk (twPlain lazyTwisted) 4 1 ([1], [q]) ([1], [A]) ∧
      ∃ st r u, twRunInts (twPlain lazyTwisted) 4 1 (twNew lazyTwisted (twPlain lazyTwisted) 4 1)
          (job ([1], [q]) ++ job ([1], [q])) = .ok st ∧
        st.result = some r ∧ IRep (unpackPoint r) u ∧ ¬ ERep blsTwist u (msmSum [1] [A]) :=
  reuse_false _ (accOk_plain lazyTwisted_ok 4 1 (by norm_num) (by norm_num))
    (fun _ _ => length_accumulate _ _ _ _ _ _ _) (fun _ => ⟨_, if_pos (by simp [shapesOk])⟩)

/-- Nor for `MSMPippengerTwistedSigned`. -/
theorem C81_signed_reuse_false :
    ∃ (q : Quad Nat) (A : (W1 : WeierstrassCurve.Affine (ZMod P)).Point),
      JobOk (twSigned lazyTwisted) 4 1 ([1], [q]) ([1], [A]) ∧
      ∃ st r u, twRunInts (twSigned lazyTwisted) 4 1 (twNew lazyTwisted (twSigned lazyTwisted) 4 1)
          (job ([1], [q]) ++ job ([1], [q])) = .ok st ∧
        st.result = some r ∧ IRep (unpackPoint r) u ∧ ¬ ERep blsTwist u (msmSum [1] [A]) := by
  refine reuse_false _ (accOk_signed lazyTwisted_ok lazyTwisted_neg 4 1 (by norm_num) (by norm_num))
    (fun _ _ => length_accumulateSigned _ _ _ _ _ _ _ _) (fun p => ?_)
  have : ∃ ss, baSelectionSigned 4 [1] = .ok ss := by
    refine ⟨_, baSelectionSigned_eq 4 [1] ?_⟩
    decide +kernel
  obtain ⟨ss, hss⟩ := this
  simp only [twSigned, hss, bind, Except.bind]
  exact ⟨_, if_pos (by simp [shapesOk])⟩

/-! ## Non-vacuity -/

/-- The hypotheses of `C81_twisted_partial` and `C81_signed_partial` hold for a history with an accumulation. -/
example : ∃ (cs : List (MsmCall (Quad Nat))) (gs : List (MsmCall (W1 : WeierstrassCurve.Affine (ZMod P)).Point)),
    List.Forall₂ (IntCall 4) cs gs ∧ MsmCall.accumulate ∈ cs ∧
    ∃ st, twRunInts (twPlain lazyTwisted) 4 1 (twNew lazyTwisted (twPlain lazyTwisted) 4 1) cs = .ok st := by
  obtain ⟨q, A, ⟨h, -⟩, st, r, u, e, -⟩ := C81_twisted_reuse_false
  exact ⟨_, job ([1], [A]) ++ job ([1], [A]), List.rel_append (.cons h (.cons .accumulate (.cons .reduce (.cons .batch
    (.cons .merge .nil))))) (.cons h (.cons .accumulate (.cons .reduce (.cons .batch (.cons .merge .nil))))), by simp,
    st, e⟩

/-- Small integers under addition. -/
def intOps : Ops Int where
  blank := 0
  padd := (· + ·)
  pdul x := x + x
  pneg x := -x
  selEq := selDec

/-- `C81_xyzz`: the second run on an `MSMPippenger` object: `2 * 20 + 1 * 7`, after `3 * 100`. -/
example : ∃ st, xRun intOps 2 (xNew intOps 2) [.init [3] [100], .accumulate, .reduce, .merge,
    .init [2, 1] [20, 7], .accumulate, .reduce, .merge] = .ok st ∧ st.result = some 47 := by
  obtain ⟨st', h⟩ : ∃ st, xRun intOps 2 (xNew intOps 2) [.init [3] [100], .accumulate, .reduce, .merge] = .ok st :=
    ⟨_, rfl⟩
  obtain ⟨st, r, h1, h2, h3⟩ := C81_xyzz_runs intOps 2 _ st' h [2, 1] [20, 7] (by simp) rfl
  refine ⟨st, h1, ?_⟩
  have h4 : msmXyzz intOps 2 [2, 1] [20, 7] = .ok 47 := by decide +kernel
  rw [h3, Except.ok.injEq] at h4
  rw [h2, h4]

end Verif.Props
