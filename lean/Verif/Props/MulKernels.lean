import Verif.Lemmas.MulKernelsRelin

/-!
# C91: `Mul` kernels with injected and shared sub-kernels
-/

namespace Verif.Props
open Verif.CkksKeys Verif.CkksMul Verif.MulKernels

/-- `Mul(...)` followed by `precompute_constants(...)`. -/
def construct (k : Call) (h : Heap) : Heap × Except String MulObj :=
  MulKernels.precompute k.inj k.original k.extend k.dnum k.r k.c k.compositeDegree h

/-- A program: other kernels are constructed, then one kernel, then others, and then the one kernel relinearises. -/
def relinAfter (earlier : List Call) (k : Call) (later : List Call) (h : Heap) (d0 d1 d2 : Mat) (evk : EvalKeys) :
    Except String (Mat × Mat) :=
  match construct k (runCalls earlier h) with
  | (_, .error e) => .error e
  | (h', .ok M) => MulKernels.relinearize (runCalls later h') M d0 d1 d2 evk

/-- Specification: the kernel constructed alone, without injected sub-kernels. -/
def relinAlone (k : Call) (d0 d1 d2 : Mat) (evk : EvalKeys) : Except String (Mat × Mat) :=
  match precomputeMul k.original k.extend k.dnum k.r k.c k.compositeDegree with
  | .error e => .error e
  | .ok K => CkksMul.relinearize (some K) d0 d1 d2 evk

/-- The moduli of the ciphertexts of a kernel. -/
def Call.moduliQ (k : Call) : List Nat := dropLastModuli k.original k.compositeDegree

/-- The injected sub-kernels have no constants yet, or those that their own `precompute_constants` computes for the moduli of
this kernel. -/
structure Prepared (k : Call) (h : Heap) : Prop where
  bconv : ∀ b, k.inj.bconv = some b → h.bcs.getD b [] = [] ∨
    ∃ control, controlIndices (Call.moduliQ k).length k.extend.length k.dnum = .ok control ∧
      fillBconv (Call.moduliQ k ++ k.extend) control = (h.bcs.getD b [], .ok ())
  fullNtt : ∀ n, k.inj.fullNtt = some n → h.ntts.getD n none = none ∨
    ∃ cs, h.ntts.getD n none = some cs ∧ precomputeNtt (Call.moduliQ k ++ k.extend) k.r k.c = .ok cs

/-- A later construction is not given the transform kernels of `M`. -/
def Spares (M : MulObj) (k : Call) : Prop :=
  ∀ n ∈ M.nttCurrent :: M.nttExtend :: M.parts, n ∉ k.inj.touches

theorem construct_spec (k : Call) (h : Heap) (hv : k.inj.Valid h) (hp : Prepared k h) :
    (∀ e, precomputeMul k.original k.extend k.dnum k.r k.c k.compositeDegree = .error e → (construct k h).2 = .error e) ∧
    ∀ K, precomputeMul k.original k.extend k.dnum k.r k.c k.compositeDegree = .ok K →
      K.moduliQ = Call.moduliQ k ∧
      ∃ M, (construct k h).2 = .ok M ∧ Matches K M ((construct k h).1.view M) ∧
        (∀ n ∈ M.nttCurrent :: M.nttExtend :: M.parts, n < (construct k h).1.ntts.length) ∧
        (construct k h).1.bcs.getD M.bconv [] ≠ [] := by
  obtain ⟨q, hq⟩ : ∃ q, q = Call.moduliQ k := ⟨_, rfl⟩
  have hq' : dropLastModuli k.original k.compositeDegree = q := hq.symm
  have hP1 := hp.bconv
  have hP2 := hp.fullNtt
  rw [← hq] at hP1 hP2
  unfold construct MulKernels.precompute precomputeMul
  dsimp only
  rw [hq', ← hq]
  by_cases hbig : (!(q.all (fun m => m < 2 ^ 31) && k.extend.all (fun m => m < 2 ^ 31))) = true
  · rw [if_pos hbig, if_pos hbig]
    exact ⟨fun e he => by simpa using he, fun K hK => by simp at hK⟩
  rw [if_neg hbig, if_neg hbig]
  simp only [bind, Except.bind, pure, Except.pure]
  cases hctl : controlIndices q.length k.extend.length k.dnum with
  | error e => exact ⟨fun e' he => by simpa using he, fun K hK => by simp at hK⟩
  | ok control =>
    simp only
    have hne : control ≠ [] := by
      obtain ⟨c1, c2⟩ := controlIndices_pos hctl
      obtain ⟨alpha, -, -, hc⟩ := controlIndices_eq q.length k.extend.length k.dnum c1 c2
      rw [hc] at hctl
      simp only [Except.ok.injEq] at hctl
      rw [← hctl]; simp
    have hbne : bcOf (q ++ k.extend) control ≠ [] := by
      unfold bcOf
      simpa using hne
    -- the basis conversion
    obtain ⟨p1, -⟩ := pickBconv_frame k.inj.bconv h
    have hblt : (pickBconv k.inj.bconv h).1 < (pickBconv k.inj.bconv h).2.bcs.length := by
      cases hb : k.inj.bconv with
      | none => simp [pickBconv]
      | some b => exact hv.bconv b hb
    have hstate : (pickBconv k.inj.bconv h).2.bcs.getD (pickBconv k.inj.bconv h).1 [] = [] ∨
        fillBconv (q ++ k.extend) control =
          ((pickBconv k.inj.bconv h).2.bcs.getD (pickBconv k.inj.bconv h).1 [], .ok ()) := by
      cases hb : k.inj.bconv with
      | none => left; simp [pickBconv, List.getD_eq_getElem?_getD]
      | some b =>
        rcases hP1 b hb with h1 | ⟨ctl, h1, h2⟩
        · exact Or.inl h1
        · rw [hctl] at h1
          obtain rfl := Except.ok.inj h1
          exact Or.inr h2
    generalize pickBconv k.inj.bconv h = bc at *
    have hfe := fillBconv_eq (q ++ k.extend) control
    have hens : ∀ u, control.mapM (fun (st : List Nat × List Nat) => Crt.qHatInvModQ (st.1.map (fun i => (q ++ k.extend).getD i 0))) = .ok u →
        ∃ h1 : Heap, ensureBconv bc.1 (q ++ k.extend) control bc.2 = (h1, .ok ()) ∧ h1.ntts = h.ntts ∧
          h1.bcs.getD bc.1 [] = bcOf (q ++ k.extend) control := by
      intro u hu
      have hok : (fillBconv (q ++ k.extend) control).2 = .ok () := by
        cases hf : (fillBconv (q ++ k.extend) control).2 with
        | ok u => rfl
        | error e => rw [(hfe e).1 hf] at hu; simp at hu
      have hfst := fillBconv_ok _ _ hok
      refine ⟨(ensureBconv bc.1 (q ++ k.extend) control bc.2).1, ?_, ?_, ?_⟩
      · unfold ensureBconv
        split
        · rw [hok]
        · rfl
      · rw [(ensureBconv_frame _ _ _ _).1, p1]
      · unfold ensureBconv
        split
        · simp only [List.getD_eq_getElem?_getD]
          rw [List.getElem?_set_self hblt, hfst]; rfl
        · rename_i hnot
          rcases hstate with h1 | h1
          · exact absurd h1 hnot
          · rw [← hfst, h1]
    cases hmap : control.mapM (fun (st : List Nat × List Nat) => Crt.qHatInvModQ (st.1.map (fun i => (q ++ k.extend).getD i 0))) with
    | error e =>
      simp only
      refine ⟨fun e' he => ?_, fun K hK => by simp at hK⟩
      obtain rfl : e = e' := by simpa using he
      have hfe' := (hfe e).2 hmap
      have h0 : bc.2.bcs.getD bc.1 [] = [] := by
        rcases hstate with h1 | h1
        · exact h1
        · rw [h1] at hfe'; simp at hfe'
      have : ensureBconv bc.1 (q ++ k.extend) control bc.2 =
          ({ bc.2 with bcs := bc.2.bcs.set bc.1 (fillBconv (q ++ k.extend) control).1 }, .error e) := by
        unfold ensureBconv
        rw [if_pos h0, hfe']
      rw [this]
    | ok u =>
      obtain ⟨h1, he1, he2, he3⟩ := hens u hmap
      rw [he1]
      simp only
      have hv1 : ∀ n, k.inj.nttCurrent = some n → n < h1.ntts.length := fun n hn => by rw [he2]; exact hv.current n hn
      have hv2 : ∀ n, k.inj.nttExtend = some n → n < h1.ntts.length := fun n hn => by rw [he2]; exact hv.extend n hn
      obtain ⟨f1, f2⟩ := fullConstants_frame k.inj (q ++ k.extend) k.r k.c h1
      have hfull : (∀ e, (q ++ k.extend).mapM (fun (m : Nat) => NttBat.precomputeTables k.r k.c m) = .error e →
            (fullConstants k.inj (q ++ k.extend) k.r k.c h1).2 = .error e) ∧
          ∀ t, (q ++ k.extend).mapM (fun (m : Nat) => NttBat.precomputeTables k.r k.c m) = .ok t →
            (fullConstants k.inj (q ++ k.extend) k.r k.c h1).2 = .ok ⟨k.r, k.c, (q ++ k.extend).zip t⟩ := by
        have hpn : ∀ x, x = (q ++ k.extend).mapM (fun (m : Nat) => NttBat.precomputeTables k.r k.c m) →
            precomputeNtt (q ++ k.extend) k.r k.c = x.map (fun t => ⟨k.r, k.c, (q ++ k.extend).zip t⟩) := by
          rintro x rfl
          unfold precomputeNtt
          simp only [bind, Except.bind, pure, Except.pure]
          cases (q ++ k.extend).mapM (fun (m : Nat) => NttBat.precomputeTables k.r k.c m) <;> rfl
        have hpn' := hpn _ rfl
        unfold fullConstants
        cases hfn : k.inj.fullNtt.bind (fun n => h1.ntts.getD n none) with
        | none =>
          simp only
          rw [hpn']
          constructor
          · intro e he; rw [he]; rfl
          · intro t ht; rw [ht]; rfl
        | some cs =>
          simp only
          obtain ⟨n, hn, hcs⟩ := Option.bind_eq_some_iff.1 hfn
          rw [he2] at hcs
          rcases hP2 n hn with hno | ⟨cs', hc1, hc2⟩
          · rw [hcs] at hno; simp at hno
          · rw [hcs] at hc1
            obtain rfl := Option.some.inj hc1
            rw [hpn'] at hc2
            constructor
            · intro e he; rw [he] at hc2; simp [Except.map] at hc2
            · intro t ht; rw [ht] at hc2; simpa [Except.map] using hc2.symm
      cases htab : (q ++ k.extend).mapM (fun (m : Nat) => NttBat.precomputeTables k.r k.c m) with
      | error e =>
        simp only
        refine ⟨fun e' he => ?_, fun K hK => by simp at hK⟩
        obtain rfl : e = e' := by simpa using he
        have := hfull.1 e htab
        generalize fullConstants k.inj (q ++ k.extend) k.r k.c h1 = res at *
        obtain ⟨r1, r2⟩ := res
        simp only at this
        rw [this]
      | ok tables =>
        simp only
        have hres := hfull.2 tables htab
        obtain ⟨h2, hh2⟩ : ∃ h2, fullConstants k.inj (q ++ k.extend) k.r k.c h1 = (h2, .ok ⟨k.r, k.c, (q ++ k.extend).zip tables⟩) :=
          ⟨_, Prod.ext rfl hres⟩
        rw [hh2] at f1 f2 ⊢
        rw [hv.fresh] at f1
        simp only at f1 f2 ⊢
        obtain ⟨w, hw⟩ : ∃ w, wireNtts k.inj ⟨k.r, k.c, (q ++ k.extend).zip tables⟩ q.length k.extend.length
          (control.tail.map Prod.snd) h2 = w := ⟨_, rfl⟩
        obtain ⟨h3, cur, ext, parts⟩ := w
        obtain ⟨w1, w2, w3, w4, w5, w6, w7, w8⟩ := wireNtts_spec hv.fresh (fun n hn => (hv1 n hn).trans_le f1.le)
          (fun n hn => (hv2 n hn).trans_le f1.le) hv.ne _ _ _ _ _ _ _ _ hw
        rw [hw]
        simp only
        cases hpi : q.mapM (fun (m : Nat) => (CkksMath.invMod (Crt.product k.extend : Int) m).map Int.toNat) with
        | error e =>
          simp only
          exact ⟨fun e' he => by simpa using he, fun K hK => by simp at hK⟩
        | ok pInv =>
          simp only
          refine ⟨fun e he => by simp at he, fun K hK => ?_⟩
          simp only [Except.ok.injEq] at hK
          subst hK
          refine ⟨rfl, _, rfl, ?_, ?_, ?_⟩
          · refine ⟨rfl, rfl, rfl, rfl, rfl, rfl, rfl, ?_⟩
            unfold Heap.view
            simp only
            rw [w6, w7, w8, w2, f2, he3]
          · intro n hn
            rcases List.mem_cons.1 hn with rfl | hn
            · exact w3
            · rcases List.mem_cons.1 hn with rfl | hn
              · exact w4
              · exact w5 n hn
          · simp only
            rw [w2, f2, he3]
            exact hbne

/-- In every program, a `Mul` kernel relinearises as the same kernel constructed alone, on all ciphertexts and keys and with
the same exceptions, if its injected sub-kernels were prepared for its moduli (or not at all), its transform kernels are
distinct objects, and no later construction is given them. Missing for the full statement of C91: the conditions are not
checked (`C91_stale_negation`, `C91_overwritten_negation`, `C91_factory_negation`, `C91_retry_negation`). -/
theorem C91_session_partial (earlier later : List Call) (k : Call) (h : Heap) (hv : k.inj.Valid (runCalls earlier h))
    (hp : Prepared k (runCalls earlier h))
    (hs : ∀ M, (construct k (runCalls earlier h)).2 = .ok M → ∀ k' ∈ later, Spares M k')
    (d0 d1 d2 : Mat) (evk : EvalKeys) :
    SameOn (Call.moduliQ k).length (relinAfter earlier k later h d0 d1 d2 evk) (relinAlone k d0 d1 d2 evk) := by
  obtain ⟨s1, s2⟩ := construct_spec k _ hv hp
  unfold relinAfter relinAlone
  cases hK : precomputeMul k.original k.extend k.dnum k.r k.c k.compositeDegree with
  | error e =>
    have := s1 e hK
    generalize construct k (runCalls earlier h) = res at *
    obtain ⟨r1, r2⟩ := res
    simp only at this
    subst this
    exact rfl
  | ok K =>
    obtain ⟨hq, M, m1, m2, m3, m4⟩ := s2 K hK
    have hs' := hs M m1
    generalize construct k (runCalls earlier h) = res at *
    obtain ⟨h', r2⟩ := res
    simp only at m1 m2 m3 m4
    subst m1
    simp only
    obtain ⟨g1, g2⟩ := runCalls_frame later (M.nttCurrent :: M.nttExtend :: M.parts) h' m3 (fun k' hk' => hs' k' hk')
    have hview : (runCalls later h').view M = h'.view M := by
      unfold Heap.view
      rw [g2 M.bconv m4]
      have e : ∀ n ∈ M.nttCurrent :: M.nttExtend :: M.parts, (runCalls later h').ntt n = h'.ntt n := by
        intro n hn
        unfold Heap.ntt
        rw [g1 n hn]
      rw [e M.nttCurrent (by simp), e M.nttExtend (by simp), List.map_congr_left (fun n hn => e n (by simp [hn]))]
    unfold MulKernels.relinearize CkksMul.relinearize
    rw [hview, m2.control, ← hq]
    exact relinearizeParts_same m2 (precomputeMul_shape hK) d0 d1 d2 _

/-- In particular kernels constructed without injected objects never disturb one another. -/
theorem C91_fresh (earlier later : List Call) (k : Call) (h : Heap) (hk : k.inj = ⟨none, none, none, .fresh, none⟩)
    (hl : ∀ k' ∈ later, k'.inj.nttCurrent = none ∧ k'.inj.nttExtend = none ∧ k'.inj.factory = .fresh)
    (d0 d1 d2 : Mat) (evk : EvalKeys) :
    SameOn (Call.moduliQ k).length (relinAfter earlier k later h d0 d1 d2 evk) (relinAlone k d0 d1 d2 evk) := by
  refine C91_session_partial earlier later k h ?_ ?_ ?_ d0 d1 d2 evk
  · exact ⟨by rw [hk], by simp [hk], by simp [hk], by simp [hk], by simp [hk]⟩
  · exact ⟨by simp [hk], by simp [hk]⟩
  · intro M _ k' hk' n _
    obtain ⟨a, b, c⟩ := hl k' hk'
    simp [Injected.touches, a, b, c, Factory.refs]

/-- An injected basis-conversion kernel that has constants keeps them, whatever the moduli of the new `Mul` kernel, and the new
kernel converts with them. -/
theorem C91_bconv_kept (k : Call) (h : Heap) (b : Nat) (hb : k.inj.bconv = some b) (hne : h.bcs.getD b [] ≠ []) (M : MulObj)
    (hM : (construct k h).2 = .ok M) : ((construct k h).1.view M).bconv = h.bcs.getD b [] := by
  have hf := (precompute_frame k.inj k.original k.extend k.dnum k.r k.c k.compositeDegree h).2 b hne
  have hMb : M.bconv = b := by
    unfold construct MulKernels.precompute at hM
    dsimp only at hM
    rw [hb] at hM
    simp only [pickBconv] at hM
    split at hM
    · simp at hM
    · split at hM
      · simp at hM
      · split at hM
        · simp at hM
        · split at hM
          · simp at hM
          · split at hM
            · simp at hM
            · simp only [Except.ok.injEq] at hM
              rw [← hM]
  unfold Heap.view construct
  rw [hMb]
  exact hf

/-! ### Programs in which the conditions fail

The secret key is 1 and the key encrypts `P` with error 1, so that relinearising `(0, 0, v)` must give a first component
close to `v`. All polynomials are constants, whose transforms have equal entries. -/

/-- A call with `r = 1`, `c = 2`, one part and one modulus dropped (the last, 5). -/
def mulCall (inj : Injected) (q p : Nat) : Call := ⟨inj, [q, 5], [p], 1, 1, 2, 1⟩

/-- The key for the moduli `q` and `p`. -/
def onesKey (q p : Nat) : EvalKeys := ⟨[fun _ _ => 0], [fun i _ => (p + 1) % [q, p].getD i 1], [q, p]⟩

/-- The constant terms of the result, and the exceptions. -/
def consts (r : Except String (Mat × Mat)) : Except String (List Nat) := r.map (fun m => [m.1 0 0, m.1 0 1, m.2 0 0, m.2 0 1])

/-- The relinearisation of `(0, 0, d2)` in a program over the heap `h`; `d2` has the slots `v` and `w`. -/
def run (earlier : List Call) (k : Call) (later : List Call) (h : Heap) (q p v w : Nat) : Except String (List Nat) :=
  consts (relinAfter earlier k later h (fun _ _ => 0) (fun _ _ => 0) (fun _ t => if t = 0 then v else w) (onesKey q p))

/-- What the kernel alone computes. -/
def alone (k : Call) (q p v w : Nat) : Except String (List Nat) :=
  consts (relinAlone k (fun _ _ => 0) (fun _ _ => 0) (fun _ t => if t = 0 then v else w) (onesKey q p))

/-- Two `Mul` kernels for different moduli given the same basis-conversion kernel: the second one accepts the constants of the
first, and relinearises 20000 to 30925 without an exception. -/
theorem C91_stale_negation :
    run [mulCall ⟨some 0, none, none, .fresh, none⟩ 12289 40961] (mulCall ⟨some 0, none, none, .fresh, none⟩ 65537 40961) []
      ⟨[], [[]]⟩ 65537 40961 20000 20000 = .ok [30925, 30925, 0, 0] ∧
    alone (mulCall ⟨some 0, none, none, .fresh, none⟩ 65537 40961) 65537 40961 20000 20000 = .ok [20000, 20000, 0, 0] := by
  decide +kernel

/-- Two `Mul` kernels for different moduli given the same `ntt_current`: the construction of the second one overwrites the
constants of the first, which then relinearises 20000 to 30925 without an exception, and it was right before. -/
theorem C91_overwritten_negation :
    run [] (mulCall ⟨none, some 0, none, .fresh, none⟩ 65537 40961) [mulCall ⟨none, some 0, none, .fresh, none⟩ 12289 40961]
      ⟨[none], []⟩ 65537 40961 20000 20000 = .ok [30925, 30925, 0, 0] ∧
    run [] (mulCall ⟨none, some 0, none, .fresh, none⟩ 65537 40961) [] ⟨[none], []⟩ 65537 40961 20000 20000 =
      .ok [20000, 20000, 0, 0] := by
  decide +kernel

/-- A factory that returns one object: with two moduli or two parts `relinearize` raises, with one of each it is wrong; the
slots 20000 and 0 become 19840 and 160 (an error of -8217 in a coefficient, modulo 40961). -/
theorem C91_factory_negation :
    run [] ⟨⟨none, none, none, .shared 0, none⟩, [65537, 12289, 5], [40961], 1, 1, 2, 1⟩ [] ⟨[none], []⟩ 65537 40961 20000 0 =
      .error "TypeError" ∧
    run [] (mulCall ⟨none, none, none, .shared 0, none⟩ 40961 65537) [] ⟨[none], []⟩ 40961 65537 20000 0 =
      .ok [19840, 160, 0, 0] ∧
    alone (mulCall ⟨none, none, none, .shared 0, none⟩ 40961 65537) 40961 65537 20000 0 = .ok [20000, 0, 0, 0] := by
  decide +kernel

/-- A construction that raises (7 has no suitable root of unity) leaves constants in the injected basis-conversion kernel, so
that the construction with corrected moduli relinearises 20000 to 47936 without an exception. -/
theorem C91_retry_negation :
    consts (relinAlone (mulCall ⟨some 0, none, none, .fresh, none⟩ 12289 7) (fun _ _ => 0) (fun _ _ => 0) (fun _ _ => 0)
      (onesKey 12289 7)) = .error "ValueError" ∧
    run [mulCall ⟨some 0, none, none, .fresh, none⟩ 12289 7] (mulCall ⟨some 0, none, none, .fresh, none⟩ 65537 40961) []
      ⟨[], [[]]⟩ 65537 40961 20000 20000 = .ok [47936, 47936, 0, 0] := by
  decide +kernel

/-- Hypotheses of `C91_session_partial`: a kernel given a basis-conversion kernel initialised by an equal kernel and an uninitialised `ntt_current`, followed by the
construction of a kernel for other moduli with the same basis-conversion kernel. -/
example : Injected.Valid ⟨some 0, some 0, none, .fresh, none⟩
      (runCalls [mulCall ⟨some 0, none, none, .fresh, none⟩ 65537 40961] ⟨[none], [[]]⟩) ∧
    Prepared (mulCall ⟨some 0, some 0, none, .fresh, none⟩ 65537 40961)
      (runCalls [mulCall ⟨some 0, none, none, .fresh, none⟩ 65537 40961] ⟨[none], [[]]⟩) ∧
    ∀ M, Spares M (mulCall ⟨some 0, none, none, .fresh, none⟩ 12289 40961) := by
  have e : (runCalls [mulCall ⟨some 0, none, none, .fresh, none⟩ 65537 40961] ⟨[none], [[]]⟩).bcs =
      [[([40961], [65537]), ([65537], [40961])]] := by decide +kernel
  have l : (runCalls [mulCall ⟨some 0, none, none, .fresh, none⟩ 65537 40961] ⟨[none], [[]]⟩).ntts.length = 5 := by decide +kernel
  refine ⟨⟨rfl, ?_, ?_, by simp, by simp⟩, ⟨?_, by simp [mulCall]⟩, ?_⟩
  · rintro b ⟨⟩; rw [e]; decide
  · rintro n ⟨⟩; rw [l]; decide
  · rintro b hb
    obtain rfl : 0 = b := by simpa [mulCall] using hb
    right
    rw [e]
    exact ⟨[([1], [0]), ([0], [1])], by decide +kernel, by decide +kernel⟩
  · intro M n _
    simp [mulCall, Injected.touches, Factory.refs]

/-- The hypotheses of `C91_bconv_kept`. -/
example : (mulCall ⟨some 0, none, none, .fresh, none⟩ 65537 40961).inj.bconv = some 0 ∧
    (Heap.mk [] [[([40961], [12289]), ([12289], [40961])]]).bcs.getD 0 [] ≠ [] ∧
    ((construct (mulCall ⟨some 0, none, none, .fresh, none⟩ 65537 40961) ⟨[], [[([40961], [12289]), ([12289], [40961])]]⟩).2.map
      (fun M => M.moduliQ)) = .ok [65537] := by
  decide +kernel

end Verif.Props
