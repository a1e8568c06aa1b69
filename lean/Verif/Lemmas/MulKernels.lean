import Verif.Model.MulKernels
import Verif.Lemmas.CkksControl

/-! # Lemmas for the sub-kernels of `Mul` -/

namespace Verif.MulKernels
open Verif.Barrett Verif.NttBat Verif.CkksKeys Verif.CkksMath Verif.CkksMul

/-- `h'` has the objects of `h`, changed at most at the transform kernels in `S`. -/
structure Ext (S : List Nat) (h h' : Heap) : Prop where
  le : h.ntts.length ≤ h'.ntts.length
  same : ∀ n, n < h.ntts.length → n ∉ S → h'.ntts.getD n none = h.ntts.getD n none

theorem Ext.refl (S : List Nat) (h : Heap) : Ext S h h := ⟨Nat.le_refl _, fun _ _ _ => rfl⟩

theorem Ext.trans {S : List Nat} {a b c : Heap} (h1 : Ext S a b) (h2 : Ext S b c) : Ext S a c :=
  ⟨h1.le.trans h2.le, fun n hn hS => (h2.same n (hn.trans_le h1.le) hS).trans (h1.same n hn hS)⟩

theorem Ext.mono {S T : List Nat} {a b : Heap} (h : Ext S a b) (hST : ∀ n ∈ S, n < a.ntts.length → n ∈ T) : Ext T a b :=
  ⟨h.le, fun n hn hT => h.same n hn (fun hS => hT (hST n hS hn))⟩

theorem ntt_setNtt_self {h : Heap} {n : Nat} (hn : n < h.ntts.length) (cs : NttConsts) : (h.setNtt n cs).ntt n = cs := by
  unfold Heap.setNtt Heap.ntt
  simp only [List.getD_eq_getElem?_getD]
  rw [List.getElem?_set_self hn]
  rfl

theorem setNtt_ext (h : Heap) (n : Nat) (cs : NttConsts) : Ext [n] h (h.setNtt n cs) := by
  refine ⟨by simp [Heap.setNtt], fun k hk hn => ?_⟩
  have hne : n ≠ k := fun e => hn (by simp [e])
  unfold Heap.setNtt
  simp only [List.getD_eq_getElem?_getD]
  rw [List.getElem?_set_ne hne]

theorem ntt_of_ext {S : List Nat} {h h' : Heap} (he : Ext S h h') {n : Nat} (hn : n < h.ntts.length) (hS : n ∉ S) :
    h'.ntt n = h.ntt n := by
  unfold Heap.ntt
  rw [he.same n hn hS]

theorem newNtt_ext (S : List Nat) (h : Heap) : Ext S h (newNtt .fresh h).2 := by
  refine ⟨by simp [newNtt], fun n hn _ => ?_⟩
  simp only [newNtt, List.getD_eq_getElem?_getD]
  rw [List.getElem?_append_left hn]

theorem newNtt_lt (h : Heap) : (newNtt .fresh h).1 < (newNtt .fresh h).2.ntts.length := by
  simp [newNtt]

theorem newNtt_fst (h : Heap) : (newNtt .fresh h).1 = h.ntts.length := rfl

theorem newSet_ext (h : Heap) (cs : NttConsts) : Ext [] h ((newNtt .fresh h).2.setNtt (newNtt .fresh h).1 cs) := by
  have h1 := (newNtt_ext [h.ntts.length] h).trans (setNtt_ext (newNtt .fresh h).2 h.ntts.length cs)
  exact h1.mono (fun n hn hlt => by simp at hn; omega)

theorem partKernels_spec (full : NttConsts) (targets : List (List Nat)) (h : Heap) :
    Ext [] h (partKernels .fresh full targets h).2 ∧
    (partKernels .fresh full targets h).2.bcs = h.bcs ∧
    (∀ n ∈ (partKernels .fresh full targets h).1,
      h.ntts.length ≤ n ∧ n < (partKernels .fresh full targets h).2.ntts.length) ∧
    (partKernels .fresh full targets h).1.map (partKernels .fresh full targets h).2.ntt = targets.map full.pick := by
  induction targets generalizing h with
  | nil => exact ⟨Ext.refl _ _, rfl, by simp [partKernels], rfl⟩
  | cons idx rest ih =>
    obtain ⟨h1, h2, h3, h4⟩ := ih ((newNtt .fresh h).2.setNtt (newNtt .fresh h).1 (full.pick idx))
    have e := newSet_ext h (full.pick idx)
    have hlt : (newNtt .fresh h).1 < ((newNtt .fresh h).2.setNtt (newNtt .fresh h).1 (full.pick idx)).ntts.length := by
      simp [newNtt, Heap.setNtt]
    simp only [partKernels]
    refine ⟨e.trans h1, h2, ?_, ?_⟩
    · intro n hn
      rcases List.mem_cons.1 hn with rfl | hn
      · exact ⟨Nat.le_refl _, hlt.trans_le h1.le⟩
      · exact ⟨e.le.trans (h3 n hn).1, (h3 n hn).2⟩
    · rw [List.map_cons, List.map_cons, h4, ntt_of_ext h1 hlt (by simp), ntt_setNtt_self (newNtt_lt h)]

/-- The references given to `Mul.__init__` exist, and `ntt_current` and `ntt_extend` are different objects. -/
structure Injected.Valid (inj : Injected) (h : Heap) : Prop where
  fresh : inj.factory = .fresh
  bconv : ∀ b, inj.bconv = some b → b < h.bcs.length
  current : ∀ n, inj.nttCurrent = some n → n < h.ntts.length
  extend : ∀ n, inj.nttExtend = some n → n < h.ntts.length
  ne : ∀ n, inj.nttCurrent = some n → inj.nttExtend ≠ some n

/-- The transform kernels that a construction writes among those that existed before. -/
def Injected.writes (inj : Injected) : List Nat := inj.nttCurrent.toList ++ inj.nttExtend.toList

theorem pickNtt_ext {i : Option Nat} (S : List Nat) (h : Heap) : Ext S h (pickNtt i .fresh h).2 := by
  cases i with
  | none => exact newNtt_ext S h
  | some n => exact Ext.refl _ _

theorem pickNtt_lt {i : Option Nat} {h : Heap} (hi : ∀ n, i = some n → n < h.ntts.length) :
    (pickNtt i .fresh h).1 < (pickNtt i .fresh h).2.ntts.length := by
  cases i with
  | none => exact newNtt_lt h
  | some n => exact hi n rfl

theorem pickNtt_bcs (i : Option Nat) (h : Heap) : (pickNtt i .fresh h).2.bcs = h.bcs := by
  cases i <;> rfl

theorem pickSet_ext {i : Option Nat} (h : Heap) (cs : NttConsts) :
    Ext i.toList h ((pickNtt i .fresh h).2.setNtt (pickNtt i .fresh h).1 cs) := by
  cases i with
  | none => exact newSet_ext h cs
  | some n => exact setNtt_ext h n cs

theorem wireNtts_spec {inj : Injected} {h : Heap} (hf : inj.factory = .fresh)
    (hc : ∀ n, inj.nttCurrent = some n → n < h.ntts.length) (he : ∀ n, inj.nttExtend = some n → n < h.ntts.length)
    (hne : ∀ n, inj.nttCurrent = some n → inj.nttExtend ≠ some n) (full : NttConsts) (numQ numP : Nat)
    (targets : List (List Nat)) (h' : Heap) (cur ext : Nat) (parts : List Nat)
    (hw : wireNtts inj full numQ numP targets h = (h', cur, ext, parts)) :
    Ext inj.writes h h' ∧ h'.bcs = h.bcs ∧ cur < h'.ntts.length ∧ ext < h'.ntts.length ∧
    (∀ n ∈ parts, n < h'.ntts.length) ∧
    h'.ntt cur = full.slice 0 numQ ∧ h'.ntt ext = full.slice numQ numP ∧ parts.map h'.ntt = targets.map full.pick := by
  unfold wireNtts at hw
  rw [hf] at hw
  dsimp only at hw
  obtain ⟨a, ha⟩ : ∃ a, a = pickNtt inj.nttCurrent .fresh h := ⟨_, rfl⟩
  obtain ⟨h1, hh1⟩ : ∃ h1, h1 = a.2.setNtt a.1 (full.slice 0 numQ) := ⟨_, rfl⟩
  obtain ⟨b, hb⟩ : ∃ b, b = pickNtt inj.nttExtend .fresh h1 := ⟨_, rfl⟩
  obtain ⟨h2, hh2⟩ : ∃ h2, h2 = b.2.setNtt b.1 (full.slice numQ numP) := ⟨_, rfl⟩
  rw [← ha, ← hh1, ← hb, ← hh2] at hw
  obtain ⟨p1, p2, p3, p4⟩ := partKernels_spec full targets h2
  simp only [Prod.mk.injEq] at hw
  obtain ⟨w1, w2, w3, w4⟩ := hw
  rw [w1] at p1 p2 p3 p4
  rw [w4] at p3 p4
  have e1 : Ext inj.nttCurrent.toList h h1 := by rw [hh1, ha]; exact pickSet_ext h _
  have e2 : Ext inj.nttExtend.toList h1 h2 := by rw [hh2, hb]; exact pickSet_ext h1 _
  have la : a.1 < h1.ntts.length := by
    rw [hh1]
    have := pickNtt_lt hc
    rw [← ha] at this
    simpa [Heap.setNtt] using this
  have va : h1.ntt a.1 = full.slice 0 numQ := by
    rw [hh1]
    exact ntt_setNtt_self (by have := pickNtt_lt hc; rwa [← ha] at this) _
  have hext' : ∀ n, inj.nttExtend = some n → n < h1.ntts.length := fun n hn => (he n hn).trans_le e1.le
  have lb : b.1 < h2.ntts.length := by
    rw [hh2]
    have := pickNtt_lt hext'
    rw [← hb] at this
    simpa [Heap.setNtt] using this
  have vb : h2.ntt b.1 = full.slice numQ numP := by
    rw [hh2]
    exact ntt_setNtt_self (by have := pickNtt_lt hext'; rwa [← hb] at this) _
  have hnot : a.1 ∉ inj.nttExtend.toList := by
    intro hm
    rw [Option.mem_toList] at hm
    cases hcur : inj.nttCurrent with
    | some n =>
      have : a.1 = n := by rw [ha, hcur]; rfl
      exact hne n hcur (by rw [← this]; exact hm)
    | none =>
      have : a.1 = h.ntts.length := by rw [ha, hcur]; rfl
      have := he _ hm
      omega
  have va2 : h2.ntt a.1 = full.slice 0 numQ := by rw [ntt_of_ext e2 la hnot, va]
  have hall : Ext inj.writes h h' := by
    have m1 : Ext inj.writes h h1 := e1.mono (fun n hn _ => List.mem_append_left _ hn)
    have m2 : Ext inj.writes h1 h2 := e2.mono (fun n hn _ => List.mem_append_right _ hn)
    have m3 : Ext inj.writes h2 h' := p1.mono (fun n hn _ => by simp at hn)
    exact (m1.trans m2).trans m3
  refine ⟨hall, ?_, ?_, ?_, fun n hn => (p3 n hn).2, ?_, ?_, p4⟩
  · rw [p2, hh2]
    show b.2.bcs = _
    rw [hb, pickNtt_bcs, hh1]
    show a.2.bcs = _
    rw [ha, pickNtt_bcs]
  · rw [← w2]; exact la.trans_le (e2.le.trans p1.le)
  · rw [← w3]; exact lb.trans_le p1.le
  · rw [← w2, ntt_of_ext p1 (la.trans_le e2.le) (by simp), va2]
  · rw [← w3, ntt_of_ext p1 lb (by simp), vb]

/-- The constants that a basis-conversion kernel holds after its own `precompute_constants`. -/
def bcOf (all : List Nat) (control : List (List Nat × List Nat)) : BcKernel := control.map (bcPair all)

theorem fillBconv_eq (all : List Nat) (control : List (List Nat × List Nat)) :
    ∀ e, (fillBconv all control).2 = .error e ↔
      control.mapM (fun (st : List Nat × List Nat) => Crt.qHatInvModQ (st.1.map (fun i => all.getD i 0))) = .error e := by
  induction control with
  | nil => intro e; simp [fillBconv, pure, Except.pure]
  | cons st rest ih =>
    intro e
    simp only [fillBconv, List.mapM_cons, bind, Except.bind, pure, Except.pure, bcPair]
    cases hq : Crt.qHatInvModQ (st.1.map (fun i => all.getD i 0)) with
    | error e' => simp
    | ok v =>
      simp only
      rw [ih e]
      cases List.mapM (fun (st : List Nat × List Nat) => Crt.qHatInvModQ (st.1.map (fun i => all.getD i 0))) rest <;> simp

theorem fillBconv_ok (all : List Nat) (control : List (List Nat × List Nat)) (h : (fillBconv all control).2 = .ok ()) :
    (fillBconv all control).1 = bcOf all control := by
  induction control with
  | nil => rfl
  | cons st rest ih =>
    simp only [fillBconv] at h ⊢
    cases hq : Crt.qHatInvModQ (bcPair all st).1 with
    | error e' => rw [hq] at h; simp at h
    | ok v =>
      rw [hq] at h
      simp only at h ⊢
      rw [ih h]
      rfl

/-- The object that a factory returns each time, if it is always the same. -/
def Factory.refs : Factory → List Nat
  | .fresh => []
  | .shared n => [n]

theorem newSet_frame (f : Factory) (h : Heap) (cs : NttConsts) : Ext f.refs h ((newNtt f h).2.setNtt (newNtt f h).1 cs) := by
  cases f with
  | fresh => exact newSet_ext h cs
  | shared n => exact setNtt_ext h n cs

theorem newNtt_frame (S : List Nat) (f : Factory) (h : Heap) : Ext S h (newNtt f h).2 := by
  cases f with
  | fresh => exact newNtt_ext S h
  | shared n => exact Ext.refl _ _

theorem newNtt_bcs (f : Factory) (h : Heap) : (newNtt f h).2.bcs = h.bcs := by cases f <;> rfl

theorem pickSet_frame (i : Option Nat) (f : Factory) (h : Heap) (cs : NttConsts) :
    Ext (i.toList ++ f.refs) h ((pickNtt i f h).2.setNtt (pickNtt i f h).1 cs) := by
  cases i with
  | none => exact newSet_frame f h cs
  | some n => exact (setNtt_ext h n cs).mono (fun k hk _ => List.mem_append_left _ hk)

theorem partKernels_frame (f : Factory) (full : NttConsts) (targets : List (List Nat)) (h : Heap) :
    Ext f.refs h (partKernels f full targets h).2 ∧ (partKernels f full targets h).2.bcs = h.bcs := by
  induction targets generalizing h with
  | nil => exact ⟨Ext.refl _ _, rfl⟩
  | cons idx rest ih =>
    obtain ⟨h1, h2⟩ := ih ((newNtt f h).2.setNtt (newNtt f h).1 (full.pick idx))
    refine ⟨(newSet_frame f h _).trans h1, h2.trans ?_⟩
    exact newNtt_bcs f h

/-- The transform kernels that a construction may write among those that existed before. -/
def Injected.touches (inj : Injected) : List Nat := inj.nttCurrent.toList ++ inj.nttExtend.toList ++ inj.factory.refs

theorem wireNtts_frame (inj : Injected) (full : NttConsts) (numQ numP : Nat) (targets : List (List Nat)) (h : Heap) :
    Ext inj.touches h (wireNtts inj full numQ numP targets h).1 ∧ (wireNtts inj full numQ numP targets h).1.bcs = h.bcs := by
  unfold wireNtts
  dsimp only
  have e1 := pickSet_frame inj.nttCurrent inj.factory h (full.slice 0 numQ)
  have b1 : ((pickNtt inj.nttCurrent inj.factory h).2.setNtt (pickNtt inj.nttCurrent inj.factory h).1 (full.slice 0 numQ)).bcs = h.bcs := by
    show (pickNtt inj.nttCurrent inj.factory h).2.bcs = _
    cases inj.nttCurrent with
    | none => exact newNtt_bcs _ _
    | some n => rfl
  generalize (pickNtt inj.nttCurrent inj.factory h).2.setNtt (pickNtt inj.nttCurrent inj.factory h).1 (full.slice 0 numQ) = h1 at *
  have e2 := pickSet_frame inj.nttExtend inj.factory h1 (full.slice numQ numP)
  have b2 : ((pickNtt inj.nttExtend inj.factory h1).2.setNtt (pickNtt inj.nttExtend inj.factory h1).1 (full.slice numQ numP)).bcs = h1.bcs := by
    show (pickNtt inj.nttExtend inj.factory h1).2.bcs = _
    cases inj.nttExtend with
    | none => exact newNtt_bcs _ _
    | some n => rfl
  generalize (pickNtt inj.nttExtend inj.factory h1).2.setNtt (pickNtt inj.nttExtend inj.factory h1).1 (full.slice numQ numP) = h2 at *
  obtain ⟨e3, b3⟩ := partKernels_frame inj.factory full targets h2
  unfold Injected.touches
  refine ⟨?_, b3.trans (b2.trans b1)⟩
  refine (Ext.trans (e1.mono ?_) (e2.mono ?_)).trans (e3.mono ?_)
  · intro n hn _; simp only [List.mem_append] at hn ⊢; tauto
  · intro n hn _; simp only [List.mem_append] at hn ⊢; tauto
  · intro n hn _; simp only [List.mem_append] at hn ⊢; tauto

theorem fullConstants_frame (inj : Injected) (all : List Nat) (r c : Nat) (h : Heap) :
    Ext inj.factory.refs h (fullConstants inj all r c h).1 ∧ (fullConstants inj all r c h).1.bcs = h.bcs := by
  unfold fullConstants
  split
  · exact ⟨Ext.refl _ _, rfl⟩
  · split
    · exact ⟨newNtt_frame _ _ _, newNtt_bcs _ _⟩
    · exact ⟨newSet_frame _ _ _, newNtt_bcs _ _⟩

/-- Initialised basis-conversion kernels are left alone. -/
def KeepsBcs (h h' : Heap) : Prop := ∀ b, h.bcs.getD b [] ≠ [] → h'.bcs.getD b [] = h.bcs.getD b []

theorem KeepsBcs.trans {a b c : Heap} (h1 : KeepsBcs a b) (h2 : KeepsBcs b c) : KeepsBcs a c := by
  intro i hi
  have e := h1 i hi
  rw [h2 i (by rw [e]; exact hi), e]

theorem KeepsBcs.of_eq {a b : Heap} (h : b.bcs = a.bcs) : KeepsBcs a b := fun i _ => by rw [h]

theorem pickBconv_frame (i : Option Nat) (h : Heap) : (pickBconv i h).2.ntts = h.ntts ∧ KeepsBcs h (pickBconv i h).2 := by
  cases i with
  | some b => exact ⟨rfl, fun _ _ => rfl⟩
  | none =>
    refine ⟨rfl, fun b hb => ?_⟩
    simp only [pickBconv, List.getD_eq_getElem?_getD] at *
    rcases Nat.lt_or_ge b h.bcs.length with hl | hl
    · rw [List.getElem?_append_left hl]
    · rw [List.getElem?_eq_none hl] at hb
      exact absurd rfl hb

theorem ensureBconv_frame (b : Nat) (all : List Nat) (control : List (List Nat × List Nat)) (h : Heap) :
    (ensureBconv b all control h).1.ntts = h.ntts ∧ KeepsBcs h (ensureBconv b all control h).1 := by
  unfold ensureBconv
  split
  · rename_i h0
    refine ⟨rfl, fun i hi => ?_⟩
    have hne : b ≠ i := by rintro rfl; exact hi h0
    simp only [List.getD_eq_getElem?_getD]
    rw [List.getElem?_set_ne hne]
  · exact ⟨rfl, fun _ _ => rfl⟩

theorem Ext.of_eq {S : List Nat} {h h' : Heap} (e : h'.ntts = h.ntts) : Ext S h h' :=
  ⟨by rw [e], fun n _ _ => by rw [e]⟩

theorem precompute_frame (inj : Injected) (original extend : List Nat) (dnum r c deg : Nat) (h : Heap) :
    Ext inj.touches h (precompute inj original extend dnum r c deg h).1 ∧
    KeepsBcs h (precompute inj original extend dnum r c deg h).1 := by
  unfold precompute
  dsimp only
  split
  · exact ⟨Ext.refl _ _, fun _ _ => rfl⟩
  · split
    · exact ⟨Ext.refl _ _, fun _ _ => rfl⟩
    · rename_i control _
      obtain ⟨p1, p2⟩ := pickBconv_frame inj.bconv h
      generalize pickBconv inj.bconv h = bc at *
      obtain ⟨q1, q2⟩ := ensureBconv_frame bc.1 (dropLastModuli original deg ++ extend) control bc.2
      split
      · rename_i h1 e he
        rw [he] at q1 q2
        exact ⟨Ext.of_eq (q1.trans p1), p2.trans q2⟩
      · rename_i h1 u he
        rw [he] at q1 q2
        have e1 : Ext inj.touches h h1 := Ext.of_eq (q1.trans p1)
        have k1 : KeepsBcs h h1 := p2.trans q2
        obtain ⟨f1, f2⟩ := fullConstants_frame inj (dropLastModuli original deg ++ extend) r c h1
        have f1' : Ext inj.touches h1 (fullConstants inj (dropLastModuli original deg ++ extend) r c h1).1 :=
          f1.mono (fun n hn _ => List.mem_append_right _ hn)
        split
        · rename_i h2 e hf
          rw [hf] at f1' f2
          exact ⟨e1.trans f1', k1.trans (KeepsBcs.of_eq f2)⟩
        · rename_i h2 full hf
          rw [hf] at f1' f2
          obtain ⟨w1, w2⟩ := wireNtts_frame inj full (dropLastModuli original deg).length extend.length (control.tail.map Prod.snd) h2
          split
          · exact ⟨(e1.trans f1').trans w1, (k1.trans (KeepsBcs.of_eq f2)).trans (KeepsBcs.of_eq w2)⟩
          · exact ⟨(e1.trans f1').trans w1, (k1.trans (KeepsBcs.of_eq f2)).trans (KeepsBcs.of_eq w2)⟩

theorem runCalls_frame (calls : List Call) (T : List Nat) (h : Heap) (hT : ∀ n ∈ T, n < h.ntts.length)
    (hc : ∀ k ∈ calls, ∀ n ∈ T, n ∉ k.inj.touches) :
    (∀ n ∈ T, (runCalls calls h).ntts.getD n none = h.ntts.getD n none) ∧ KeepsBcs h (runCalls calls h) := by
  induction calls generalizing h with
  | nil => exact ⟨fun _ _ => rfl, fun _ _ => rfl⟩
  | cons k rest ih =>
    obtain ⟨f1, f2⟩ := precompute_frame k.inj k.original k.extend k.dnum k.r k.c k.compositeDegree h
    obtain ⟨g1, g2⟩ := ih _ (fun n hn => (hT n hn).trans_le f1.le) (fun k' hk' => hc k' (List.mem_cons_of_mem _ hk'))
    exact ⟨fun n hn => (g1 n hn).trans (f1.same n (hT n hn) (hc k List.mem_cons_self n hn)), f2.trans g2⟩

end Verif.MulKernels
