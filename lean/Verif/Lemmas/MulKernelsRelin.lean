import Verif.Lemmas.MulKernels
import Verif.Lemmas.CkksRelin

/-! # `relinearize` with the sub-kernels of a `Mul` object of its own -/

namespace Verif.MulKernels
open Verif.Barrett Verif.NttBat Verif.CkksKeys Verif.CkksMath Verif.CkksMul

/-- Outcomes agree on the first `n` limbs, including the exceptions. -/
def SameOn (n : Nat) : Except String (Mat × Mat) → Except String (Mat × Mat) → Prop
  | .ok a, .ok b => ∀ i, i < n → ∀ p, a.1 i p = b.1 i p ∧ a.2 i p = b.2 i p
  | .error e, .error e' => e = e'
  | _, _ => False

/-- The object and what it reads are those of the kernel `K`. -/
structure Matches (K : Kernel) (M : MulObj) (V : View) : Prop where
  moduliQ : M.moduliQ = K.moduliQ
  moduliP : M.moduliP = K.moduliP
  r : M.r = K.r
  c : M.c = K.c
  control : M.control = K.control
  restore : M.restore = K.restore
  pInv : M.pInv = K.pInv
  view : V = { current := NttConsts.slice ⟨K.r, K.c, (K.moduliQ ++ K.moduliP).zip K.tables⟩ 0 K.moduliQ.length,
               extend := NttConsts.slice ⟨K.r, K.c, (K.moduliQ ++ K.moduliP).zip K.tables⟩ K.moduliQ.length K.moduliP.length,
               parts := (K.control.tail.map Prod.snd).map (NttConsts.pick ⟨K.r, K.c, (K.moduliQ ++ K.moduliP).zip K.tables⟩),
               bconv := bcOf (K.moduliQ ++ K.moduliP) K.control }

/-- What `precompute_constants` guarantees about its kernel. -/
structure Shape (K : Kernel) : Prop where
  tables : K.tables.length = (K.moduliQ ++ K.moduliP).length
  neQ : 0 < K.moduliQ.length
  head : K.control.head? = some (List.range' K.moduliQ.length K.moduliP.length, List.range K.moduliQ.length)
  restore : K.restore = K.control.tail.map (fun st => restoreIndex (st.1 ++ st.2))
  part : ∀ st ∈ K.control.tail, (∀ i ∈ st.1, i < K.moduliQ.length) ∧
    (st.1 ++ st.2).Perm (List.range (K.moduliQ.length + K.moduliP.length))

theorem mapM_length {α β : Type} (f : α → Except String β) : ∀ (l : List α) (r : List β), l.mapM f = .ok r → r.length = l.length := by
  intro l
  induction l with
  | nil => intro r h; simp [pure, Except.pure] at h; simp [← h]
  | cons a l ih =>
    intro r h
    simp only [List.mapM_cons, bind, Except.bind, pure, Except.pure] at h
    cases h1 : f a with
    | error e => rw [h1] at h; simp at h
    | ok y =>
      rw [h1] at h
      simp only at h
      cases h2 : l.mapM f with
      | error e => rw [h2] at h; simp at h
      | ok ys =>
        rw [h2] at h
        simp only [Except.ok.injEq] at h
        rw [← h, List.length_cons, ih ys h2, List.length_cons]

theorem controlIndices_pos {numQ numP dnum : Nat} {control} (h : controlIndices numQ numP dnum = .ok control) :
    0 < numQ ∧ 0 < dnum := by
  unfold controlIndices at h
  rcases Nat.eq_zero_or_pos dnum with hd | hd
  · rw [if_pos hd] at h; simp at h
  · rw [if_neg (by omega)] at h
    dsimp only at h
    rcases Nat.eq_zero_or_pos numQ with hq | hq
    · subst hq
      rw [if_pos (Nat.div_eq_of_lt (by omega))] at h
      simp at h
    · exact ⟨hq, hd⟩

theorem precomputeMul_shape {original extend : List Nat} {dnum r c deg : Nat} {K : Kernel}
    (h : precomputeMul original extend dnum r c deg = .ok K) : Shape K := by
  unfold precomputeMul at h
  dsimp only at h
  split at h
  · simp at h
  · obtain ⟨q, hq⟩ : ∃ q, q = dropLastModuli original deg := ⟨_, rfl⟩
    rw [← hq] at h
    simp only [bind, Except.bind, pure, Except.pure] at h
    cases h1 : controlIndices q.length extend.length dnum with
    | error e => rw [h1] at h; simp at h
    | ok control =>
      rw [h1] at h
      simp only at h
      split at h
      · simp at h
      · split at h
        · simp at h
        · rename_i tables ht
          split at h
          · simp at h
          · simp only [Except.ok.injEq] at h
            subst h
            obtain ⟨hq0, hd0⟩ := controlIndices_pos h1
            obtain ⟨alpha, ha, ha0, hc⟩ := controlIndices_eq q.length extend.length dnum hq0 hd0
            rw [hc] at h1
            simp only [Except.ok.injEq] at h1
            refine ⟨mapM_length _ _ _ ht, hq0, ?_, rfl, ?_⟩
            · show control.head? = _
              rw [← h1]; rfl
            · intro st hst
              simp only at hst
              rw [← h1, List.tail_cons] at hst
              obtain ⟨part, -, rfl⟩ := List.mem_map.1 hst
              have hlt : ∀ i ∈ block alpha q.length part, i < q.length := by
                intro i hi
                unfold block at hi
                rw [List.mem_range'_1] at hi
                omega
              refine ⟨hlt, perm_select _ _ ?_ (fun i hi => ?_)⟩
              · unfold block; exact List.nodup_range'
              · have := hlt i hi
                omega

theorem zip_getD (a : List Nat) (t : List Tables) (h : t.length = a.length) (i : Nat) :
    (a.zip t).getD i noLimb = (a.getD i 0, t.getD i Rescale.noTables) := by
  simp only [List.getD_eq_getElem?_getD]
  rcases Nat.lt_or_ge i a.length with hi | hi
  · rw [List.getElem?_eq_getElem (by simp; omega), List.getElem?_eq_getElem hi, List.getElem?_eq_getElem (by omega)]
    simp
  · rw [List.getElem?_eq_none (by simp; omega), List.getElem?_eq_none (by omega), List.getElem?_eq_none (by omega)]
    rfl

theorem slice_getD (l : List (Nat × Tables)) (s n i : Nat) (hi : i < n) : ((l.drop s).take n).getD i noLimb = l.getD (s + i) noLimb := by
  simp only [List.getD_eq_getElem?_getD]
  rw [List.getElem?_take_of_lt hi, List.getElem?_drop]

theorem basisChangeMat_congr (degree : Nat) (original target : List Nat) (a b : Mat)
    (h : ∀ i, i < original.length → a i = b i) : basisChangeMat degree original target a = basisChangeMat degree original target b := by
  unfold basisChangeMat
  have : ∀ p, (List.range original.length).map (fun i => a i p) = (List.range original.length).map (fun i => b i p) := by
    intro p
    apply List.map_congr_left
    intro i hi
    rw [h i (List.mem_range.1 hi)]
  simp only [this]

theorem getD_tail {α : Type} (l : List α) (i : Nat) (d : α) : l.getD (i + 1) d = l.tail.getD i d := by
  cases l with
  | nil => simp
  | cons a l => simp [List.getD_eq_getElem?_getD]

/-- The own limbs of the first transform kernel. -/
theorem extendPart_same {K : Kernel} {M : MulObj} {V : View} (hm : Matches K M V) (hs : Shape K) (part : Nat)
    (hp : part < K.control.length - 1) (last coeffs : Mat)
    (hco : ∀ i, i < K.moduliQ.length → coeffs i =
      inttFlat K.r K.c (K.moduliQ.getD i 0) (K.tables.getD i Rescale.noTables) (last i)) :
    extendPart M V part coeffs last = CkksMul.extendPart K part last := by
  obtain ⟨all, hall⟩ : ∃ all, all = K.moduliQ ++ K.moduliP := ⟨_, rfl⟩
  have hL : all.length = K.moduliQ.length + K.moduliP.length := by rw [hall, List.length_append]
  have hpt : part < K.control.tail.length := by rw [List.length_tail]; exact hp
  obtain ⟨st, hst⟩ : ∃ st, K.control.getD (part + 1) ([], []) = st := ⟨_, rfl⟩
  have hst' : K.control.tail[part]? = some st := by
    rw [getD_tail, List.getD_eq_getElem?_getD, List.getElem?_eq_getElem hpt] at hst
    rw [List.getElem?_eq_getElem hpt, ← hst]; rfl
  have hmem : st ∈ K.control.tail := List.mem_of_getElem? hst'
  obtain ⟨hsel, hperm⟩ := hs.part st hmem
  have hlen : st.1.length + st.2.length = K.moduliQ.length + K.moduliP.length := by
    have := hperm.length_eq
    rwa [List.length_append, List.length_range] at this
  have hctl : K.control[part + 1]? = some st := by rw [← List.getElem?_tail]; exact hst'
  have hbc : V.bconv[part + 1]? = some (bcPair all st) := by
    rw [hm.view, ← hall]
    show (K.control.map (bcPair all))[part + 1]? = _
    rw [List.getElem?_map, hctl]; rfl
  have hparts : V.parts.getD part emptyConsts = NttConsts.pick ⟨K.r, K.c, all.zip K.tables⟩ st.2 := by
    rw [hm.view, ← hall]
    show ((K.control.tail.map Prod.snd).map _).getD part emptyConsts = _
    rw [List.getD_eq_getElem?_getD, List.getElem?_map, List.getElem?_map, hst']; rfl
  have hres : K.restore.getD part [] = restoreIndex (st.1 ++ st.2) := by
    rw [hs.restore, List.getD_eq_getElem?_getD, List.getElem?_map, hst']; rfl
  have ht : K.tables.length = all.length := by rw [hall]; exact hs.tables
  have h2lt : ∀ j, j < st.2.length → st.2.getD j 0 < all.length := by
    intro j hj
    have : st.2.getD j 0 ∈ st.1 ++ st.2 := List.mem_append_right _ (getD_mem hj)
    have := List.mem_range.1 (hperm.mem_iff.1 this)
    omega
  unfold extendPart CkksMul.extendPart
  rw [hm.control, hm.r, hm.c, hm.restore, hst, hparts, hres, ← hall]
  dsimp only
  have hsel1 : (bcPair all st).1 = st.1.map (fun i => all.getD i 0) := rfl
  have hsel2 : (bcPair all st).2 = st.2.map (fun i => all.getD i 0) := rfl
  unfold applyBconv
  rw [hbc]
  dsimp only
  rw [if_neg (by rw [hsel1, List.length_map]; simp)]
  rw [basisChangeMat_congr _ _ _ _ (fun j => inttFlat K.r K.c (K.moduliQ.getD (st.1.getD j 0) 0)
    (K.tables.getD (st.1.getD j 0) Rescale.noTables) (last (st.1.getD j 0))) (by
      intro j hj
      rw [hsel1, List.length_map] at hj
      exact hco _ (hsel _ (getD_mem hj)))]
  rw [hsel1, hsel2]
  cases hb : basisChangeMat (K.r * K.c) (st.1.map (fun i => all.getD i 0)) (st.2.map (fun i => all.getD i 0))
    (fun j => inttFlat K.r K.c (K.moduliQ.getD (st.1.getD j 0) 0) (K.tables.getD (st.1.getD j 0) Rescale.noTables)
      (last (st.1.getD j 0))) with
  | error e => rfl
  | ok conv =>
    simp only [Except.map, bind, Except.bind, pure, Except.pure, List.length_map]
    rw [if_neg (by simp)]
    unfold applyNtt
    rw [if_neg (by simp [NttConsts.pick])]
    simp only [Except.ok.injEq]
    funext i
    have hpos : ∀ pos, (restoreIndex (st.1 ++ st.2)).getD i 0 = pos → pos < st.1.length + st.2.length ∨ pos = 0 := by
      rintro pos rfl
      have hperm' : (st.1 ++ st.2).Perm (List.range (st.1 ++ st.2).length) := by
        rw [List.length_append, hlen]; exact hperm
      rcases Nat.lt_or_ge i (st.1 ++ st.2).length with hi | hi
      · left
        have := (restoreIndex_get _ hperm' i hi).1
        rwa [List.length_append] at this
      · right
        rw [List.getD_eq_getElem?_getD, List.getElem?_eq_none (by rw [(restoreIndex_spec _ hperm').1]; exact hi)]
        rfl
    have hq0 := hs.neQ
    generalize (restoreIndex (st.1 ++ st.2)).getD i 0 = pos at *
    have hpos' : pos < st.1.length + st.2.length := by
      rcases hpos pos rfl with h | h <;> omega
    by_cases hlt : pos < st.1.length
    · rw [if_pos hlt, if_pos hlt]
    · rw [if_neg hlt, if_neg hlt]
      have hj : pos - st.1.length < st.2.length := by omega
      generalize pos - st.1.length = j at *
      have hlimb : ((NttConsts.pick ⟨K.r, K.c, all.zip K.tables⟩ st.2).limbs.getD j noLimb) =
          (all.getD (st.2.getD j 0) 0, K.tables.getD (st.2.getD j 0) Rescale.noTables) := by
        show (st.2.map _).getD j noLimb = _
        rw [List.getD_eq_getElem _ _ (by simpa using hj), List.getElem_map]
        have h3 := h2lt j hj
        have hz : (all.zip K.tables).length = all.length := by simp [ht]
        rw [List.getD_eq_getElem _ _ hj] at h3 ⊢
        have hmin : min st.2[j] ((all.zip K.tables).length - 1) = st.2[j] := by rw [hz]; omega
        exact (congrArg (fun k => (all.zip K.tables).getD k noLimb) hmin).trans (zip_getD _ _ ht _)
      rw [hlimb]

theorem mapM_congr {α β : Type} {f g : α → Except String β} : ∀ {l : List α}, (∀ a ∈ l, f a = g a) → l.mapM f = l.mapM g := by
  intro l
  induction l with
  | nil => intro _; rfl
  | cons a l ih =>
    intro h
    rw [List.mapM_cons, List.mapM_cons, h a List.mem_cons_self, ih (fun b hb => h b (List.mem_cons_of_mem _ hb))]

/-- The approximate division by `P` with the kernels of the object. -/
theorem relinearizeParts_same {K : Kernel} {M : MulObj} {V : View} (hm : Matches K M V) (hs : Shape K) (d0 d1 d2 : Mat)
    (evk : EvalKeys) :
    SameOn K.moduliQ.length (relinearizeParts M V d0 d1 d2 evk) (CkksMul.relinearizeParts (some K) d0 d1 d2 evk) := by
  obtain ⟨all, hall⟩ : ∃ all, all = K.moduliQ ++ K.moduliP := ⟨_, rfl⟩
  have hL : all.length = K.moduliQ.length + K.moduliP.length := by rw [hall, List.length_append]
  have ht : K.tables.length = all.length := by rw [hall]; exact hs.tables
  have hz : (all.zip K.tables).length = all.length := by simp [ht]
  have hcurL : V.current.r = K.r ∧ V.current.c = K.c ∧ V.current.limbs.length = K.moduliQ.length := by
    rw [hm.view, ← hall]
    refine ⟨rfl, rfl, ?_⟩
    show (((all.zip K.tables).drop 0).take K.moduliQ.length).length = _
    rw [List.length_take, List.length_drop, hz]; omega
  have hextL : V.extend.r = K.r ∧ V.extend.c = K.c ∧ V.extend.limbs.length = K.moduliP.length := by
    rw [hm.view, ← hall]
    refine ⟨rfl, rfl, ?_⟩
    show (((all.zip K.tables).drop K.moduliQ.length).take K.moduliP.length).length = _
    rw [List.length_take, List.length_drop, hz]; omega
  have hcur : ∀ i, i < K.moduliQ.length → V.current.limbs.getD i noLimb = (K.moduliQ.getD i 0, K.tables.getD i Rescale.noTables) := by
    intro i hi
    rw [hm.view, ← hall]
    show (((all.zip K.tables).drop 0).take K.moduliQ.length).getD i noLimb = _
    rw [slice_getD _ _ _ _ hi, zip_getD _ _ ht, Nat.zero_add, hall, List.getD_append _ _ _ _ hi]
  have hext : ∀ j, j < K.moduliP.length → V.extend.limbs.getD j noLimb =
      (K.moduliP.getD j 0, K.tables.getD (K.moduliQ.length + j) Rescale.noTables) := by
    intro j hj
    rw [hm.view, ← hall]
    show (((all.zip K.tables).drop K.moduliQ.length).take K.moduliP.length).getD j noLimb = _
    rw [slice_getD _ _ _ _ hj, zip_getD _ _ ht, hall, List.getD_append_right _ _ _ _ (by omega), Nat.add_sub_cancel_left]
  have hbc : V.bconv[0]? = some (K.moduliP, K.moduliQ) := by
    rw [hm.view, ← hall]
    show (K.control.map (bcPair all))[0]? = _
    have h0 := hs.head
    rw [List.head?_eq_getElem?] at h0
    rw [List.getElem?_map, h0]
    show some (_, _) = _
    congr 2
    · apply List.ext_getElem (by simp)
      intro j h1 h2
      simp only [List.getElem_map, List.getElem_range']
      rw [hall, List.getD_append_right _ _ _ _ (by omega), List.getD_eq_getElem _ _ (by omega)]
      congr 1; omega
    · apply List.ext_getElem (by simp)
      intro j h1 h2
      simp only [List.getElem_map, List.getElem_range]
      rw [hall, List.getD_append _ _ _ _ h2, List.getD_eq_getElem _ _ h2]
  unfold relinearizeParts CkksMul.relinearizeParts
  dsimp only
  rw [hm.control, hm.moduliQ, hm.moduliP, hm.r, hm.c, hm.pInv, ← hall]
  by_cases hk : evk.a.length < K.control.length - 1 ∨ evk.b.length < K.control.length - 1
  · rw [if_pos hk, if_pos hk]
    exact rfl
  rw [if_neg hk, if_neg hk]
  simp only [bind, Except.bind, pure, Except.pure]
  have hI : applyIntt V.current K.r K.c K.moduliQ.length d2 = .ok (fun i =>
      inttFlat K.r K.c (V.current.limbs.getD i noLimb).1 (V.current.limbs.getD i noLimb).2 (d2 i)) := by
    unfold applyIntt
    rw [if_neg (by simp [hcurL.1, hcurL.2.1, hcurL.2.2])]
  rw [hI]
  simp only
  rw [mapM_congr (g := fun part => CkksMul.extendPart K part d2) (fun part hp => extendPart_same hm hs part (List.mem_range.1 hp) d2 _
    (fun i hi => by rw [hcur i hi]))]
  cases hparts : (List.range (K.control.length - 1)).mapM (fun part => CkksMul.extendPart K part d2) with
  | error e => exact rfl
  | ok parts =>
    simp only
    obtain ⟨acc, hacc⟩ : ∃ acc : List Mat → Mat, acc = fun key i p =>
      modularReduction ((List.range (K.control.length - 1)).foldl (fun acc part =>
        add64 acc (modularReduction (mul64 (parts.getD part (fun _ _ => 0) i p) (key.getD part (fun _ _ => 0) i p))
          (Barrett.precompute (all.getD i 0)))) 0) (Barrett.precompute (all.getD i 0)) := ⟨_, rfl⟩
    have hI2 : ∀ ks : Mat, applyIntt V.extend K.r K.c K.moduliP.length ks = .ok (fun j =>
        inttFlat K.r K.c (V.extend.limbs.getD j noLimb).1 (V.extend.limbs.getD j noLimb).2 (ks j)) := by
      intro ks
      unfold applyIntt
      rw [if_neg (by simp [hextL.1, hextL.2.1, hextL.2.2])]
    have hB : ∀ ks : Mat, applyBconv V.bconv 0 K.moduliP.length (K.r * K.c) (fun j =>
        inttFlat K.r K.c (V.extend.limbs.getD j noLimb).1 (V.extend.limbs.getD j noLimb).2 (ks j)) =
        (basisChangeMat (K.r * K.c) K.moduliP K.moduliQ (fun j => inttFlat K.r K.c (K.moduliP.getD j 0)
          (K.tables.getD (K.moduliQ.length + j) Rescale.noTables) (ks j))).map
          (fun conv => (K.moduliQ.length, conv)) := by
      intro ks
      unfold applyBconv
      rw [hbc]
      dsimp only
      rw [if_neg (by simp)]
      rw [basisChangeMat_congr _ _ _ _ _ (fun j hj => by rw [hext j hj])]
    have hN : ∀ conv : Mat, applyNtt V.current K.r K.c K.moduliQ.length conv = .ok (fun i =>
        nttFlat K.r K.c (V.current.limbs.getD i noLimb).1 (V.current.limbs.getD i noLimb).2 (conv i)) := by
      intro conv
      unfold applyNtt
      rw [if_neg (by simp [hcurL.1, hcurL.2.1, hcurL.2.2])]
    simp only [hI2, hB]
    cases hc0 : basisChangeMat (K.r * K.c) K.moduliP K.moduliQ (fun j => inttFlat K.r K.c (K.moduliP.getD j 0)
          (K.tables.getD (K.moduliQ.length + j) Rescale.noTables) (acc evk.b (K.moduliQ.length + j))) with
    | error e =>
      rw [hacc] at hc0
      dsimp only at hc0
      simp only [hc0, Except.map]
      exact rfl
    | ok conv0 =>
      rw [hacc] at hc0
      dsimp only at hc0
      simp only [hc0, Except.map, hN]
      cases hc1 : basisChangeMat (K.r * K.c) K.moduliP K.moduliQ (fun j => inttFlat K.r K.c (K.moduliP.getD j 0)
          (K.tables.getD (K.moduliQ.length + j) Rescale.noTables) (acc evk.a (K.moduliQ.length + j))) with
      | error e =>
        rw [hacc] at hc1
        dsimp only at hc1
        simp only [hc1]
        exact rfl
      | ok conv1 =>
        rw [hacc] at hc1
        dsimp only at hc1
        simp only [hc1, hN, SameOn]
        intro i hi p
        simp only [hcur i hi, and_self]

end Verif.MulKernels
