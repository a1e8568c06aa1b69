import Verif.Model.RelinBatch
import Verif.Lemmas.MulKernelsRelin
import Verif.Lemmas.CkksObj

/-! # `relinearize` on batches: shapes that fit -/

namespace Verif.RelinBatch
open Verif.Barrett Verif.NttBat Verif.Rescale Verif.RescaleArr Verif.CkksMul Verif.CkksMath
open Verif.CkksObj (bd bdim_ok Compat bd_self)

/-- The array has the given shape and the given entries (in the order: leading index, element, limb, row). -/
structure Rep {α : Type} (A : BArr α) (ld : List Nat) (e' n' l' : Nat) (g : Nat → Nat → Nat → Nat → α) : Prop where
  lead : A.lead = ld
  e : A.e = e'
  n : A.n = n'
  l : A.l = l'
  val : ∀ b, b < ld.prod → ∀ k, k < e' → ∀ i, i < l' → ∀ t, A.at b k t i = g b k i t

theorem at_of {α : Type} (lead : List Nat) (e n l : Nat) (g : Nat → Nat → Nat → Nat → α) (b k t : Nat) {i : Nat} (hi : i < l) :
    (BArr.of lead e n l g).at b k t i = g b k t i := by
  show g b k ((t * l + i) / l) ((t * l + i) % l) = _
  rw [Nat.add_comm, Nat.add_mul_div_right _ _ (by omega), Nat.add_mul_mod_self_right, Nat.div_eq_of_lt hi, Nat.mod_eq_of_lt hi,
    Nat.zero_add]

theorem rep_of {α : Type} (lead : List Nat) (e n l : Nat) (g : Nat → Nat → Nat → Nat → α) :
    Rep (BArr.of lead e n l g) lead e n l (fun b k i t => g b k t i) :=
  ⟨rfl, rfl, rfl, rfl, fun b _ k _ _ hi t => at_of lead e n l g b k t hi⟩

theorem Rep.congr {α : Type} {A : BArr α} {lead : List Nat} {e n l : Nat} {g h : Nat → Nat → Nat → Nat → α}
    (hA : Rep A lead e n l g) (hg : ∀ b, b < lead.prod → ∀ k, k < e → ∀ i, i < l → ∀ t, g b k i t = h b k i t) :
    Rep A lead e n l h :=
  ⟨hA.lead, hA.e, hA.n, hA.l, fun b hb k hk i hi t => (hA.val b hb k hk i hi t).trans (hg b hb k hk i hi t)⟩

theorem bdim_self (a : Nat) : bdim a a = .ok a := by simp [bdim]

theorem pick_lt {d i : Nat} (h : i < d) : pick d i = i := by
  unfold pick
  split <;> omega

theorem sliceE_rep {α : Type} {A : BArr α} {lead : List Nat} {e n l : Nat} {g : Nat → Nat → Nat → Nat → α} (hA : Rep A lead e n l g)
    {start stop : Nat} (h : stop ≤ e) : Rep (sliceE A start stop) lead (stop - start) n l (fun b k => g b (start + k)) :=
  ⟨hA.lead, by show min stop A.e - start = _; rw [hA.e]; omega, hA.n, hA.l,
    fun b hb k hk i hi t => hA.val b hb (start + k) (by omega) i hi t⟩

theorem sliceL_rep {α : Type} {A : BArr α} {lead : List Nat} {e n l : Nat} {g : Nat → Nat → Nat → Nat → α} (hA : Rep A lead e n l g)
    {start stop : Nat} (h : stop ≤ l) : Rep (sliceL A start stop) lead e n (stop - start) (fun b k i => g b k (start + i)) := by
  have hl : min stop A.l - start = stop - start := by rw [hA.l]; omega
  refine ⟨hA.lead, hA.e, hA.n, hl, fun b hb k hk i hi t => ?_⟩
  unfold sliceL
  rw [at_of _ _ _ _ _ _ _ _ (by omega)]
  exact hA.val b hb k hk (start + i) (by omega) t

theorem reshapeRows_rep {α : Type} {A : BArr α} {lead : List Nat} {e n l : Nat} {g : Nat → Nat → Nat → Nat → α} (hA : Rep A lead e n l g)
    (h : 0 < lead.prod * e * n) : ∃ B, reshapeRows n A = .ok B ∧ Rep B lead e n l g := by
  have hn : 0 < n := Nat.pos_of_ne_zero (by rintro rfl; simp at h)
  unfold reshapeRows
  rw [hA.lead, hA.e, hA.n, hA.l, if_neg (by omega), if_neg (by simp)]
  have hl : n * l / n = l := Nat.mul_div_cancel_left l hn
  refine ⟨_, rfl, rfl, rfl, rfl, hl, fun b hb k hk i hi t => ?_⟩
  rw [← hA.val b hb k hk i hi t]
  show A.get b k (t * (n * l / n) + i) = A.get b k (t * A.l + i)
  rw [hl, hA.l]

theorem transform_rep (f : Nat → Nat → Nat → Tables → (Nat → Nat) → Nat → Nat) (r c : Nat) {T : NttK} {A : BArr Nat} {lead : List Nat}
    {e n l : Nat} {g : Nat → Nat → Nat → Nat → Nat} (hA : Rep A lead e n l g) (hT : T.length = l) :
    ∃ B, transform f r c T A = .ok B ∧
      Rep B lead e n l (fun b k i => f r c (T.getD i (0, noTables)).1 (T.getD i (0, noTables)).2 (g b k i)) := by
  unfold transform
  rw [hA.l, hT, bdim_self]
  refine ⟨_, rfl, hA.lead, hA.e, hA.n, rfl, fun b hb k hk i hi t => ?_⟩
  rw [at_of _ _ _ _ _ _ _ _ hi, pick_lt hi]
  congr 1
  funext s
  exact hA.val b hb k hk i hi s

theorem takeL_rep {A : BArr Nat} {lead : List Nat} {e n l : Nat} {g : Nat → Nat → Nat → Nat → Nat} (hA : Rep A lead e n l g)
    {idx : List Nat} (h : ∀ j, j < idx.length → idx.getD j 0 < l) :
    Rep (takeL A idx) lead e n idx.length (fun b k j => g b k (idx.getD j 0)) := by
  refine ⟨hA.lead, hA.e, hA.n, rfl, fun b hb k hk j hj t => ?_⟩
  unfold takeL
  rw [at_of _ _ _ _ _ _ _ _ hj, hA.l, if_pos (h j hj)]
  exact hA.val b hb k hk _ (h j hj) t

theorem mapM_ok_getD {α β : Type} {f : α → Except String β} {h : α → β} : ∀ {l : List α}, (∀ a ∈ l, f a = .ok (h a)) →
    l.mapM f = .ok (l.map h) := by
  intro l
  induction l with
  | nil => intro _; rfl
  | cons a l ih =>
    intro hf
    rw [List.mapM_cons, hf a List.mem_cons_self, ih (fun b hb => hf b (List.mem_cons_of_mem _ hb))]
    rfl

theorem basisChange_rep {original target : List Nat} {A : BArr Nat} {lead : List Nat} {e n : Nat} {g : Nat → Nat → Nat → Nat → Nat}
    (hA : Rep A lead e n original.length g) {out : Nat → Nat → Nat → Nat → Nat}
    (h : ∀ b, b < lead.prod → ∀ k, k < e → basisChangeMat n original target (g b k) = .ok (out b k)) :
    ∃ B, basisChange original target A = .ok B ∧ Rep B lead e n target.length out := by
  unfold basisChange
  rw [hA.l, bdim_self]
  have hM : (List.range (A.lead.prod * A.e)).mapM (fun x =>
      basisChangeMat A.n original target (fun i t => A.at (x / A.e) (x % A.e) t (pick original.length i))) =
      .ok ((List.range (A.lead.prod * A.e)).map (fun x => out (x / e) (x % e))) := by
    apply mapM_ok_getD
    intro x hx
    rw [hA.lead, hA.e, List.mem_range] at hx
    have he : 0 < e := Nat.pos_of_ne_zero (by rintro rfl; simp at hx)
    have h1 : x / e < lead.prod := Nat.div_lt_of_lt_mul (by rwa [Nat.mul_comm])
    have h2 := Nat.mod_lt x he
    rw [hA.n, hA.e, ← h _ h1 _ h2]
    apply MulKernels.basisChangeMat_congr
    intro i hi
    funext t
    rw [pick_lt hi]
    exact hA.val _ h1 _ h2 i hi t
  simp only [bind, Except.bind, pure, Except.pure, ne_eq, not_true_eq_false, if_false, hM]
  refine ⟨_, rfl, hA.lead, hA.e, hA.n, rfl, fun b hb k hk j hj t => ?_⟩
  rw [at_of _ _ _ _ _ _ _ _ hj, hA.e, hA.lead]
  have hx : b * e + k < lead.prod * e := by
    calc b * e + k < b * e + e := by omega
      _ = (b + 1) * e := by ring
      _ ≤ lead.prod * e := Nat.mul_le_mul_right _ hb
  rw [List.getD_eq_getElem _ _ (by simpa using hx), List.getElem_map, List.getElem_range]
  have h1 : (b * e + k) / e = b := by
    rw [Nat.add_comm, Nat.add_mul_div_right _ _ (by omega), Nat.div_eq_of_lt hk, Nat.zero_add]
  have h2 : (b * e + k) % e = k := by rw [Nat.add_comm, Nat.add_mul_mod_self_right, Nat.mod_eq_of_lt hk]
  rw [h1, h2]

theorem concatL_rep {A B : BArr Nat} {lead : List Nat} {e n l l' : Nat} {g g' : Nat → Nat → Nat → Nat → Nat}
    (hA : Rep A lead e n l g) (hB : Rep B lead e n l' g') :
    ∃ C, concatL A B = .ok C ∧ Rep C lead e n (l + l') (fun b k i => if i < l then g b k i else g' b k (i - l)) := by
  unfold concatL
  rw [hA.lead, hA.e, hA.n, hA.l, hB.lead, hB.e, hB.n, hB.l, if_neg (by simp)]
  refine ⟨_, rfl, rfl, rfl, rfl, rfl, fun b hb k hk i hi t => ?_⟩
  rw [at_of _ _ _ _ _ _ _ _ hi]
  split
  · exact hA.val b hb k hk i (by assumption) t
  · exact hB.val b hb k hk _ (by omega) t

theorem concatE_rep {A B : BArr Nat} {lead : List Nat} {e e' n l : Nat} {g g' : Nat → Nat → Nat → Nat → Nat}
    (hA : Rep A lead e n l g) (hB : Rep B lead e' n l g') :
    ∃ C, concatE A B = .ok C ∧ Rep C lead (e + e') n l (fun b k => if k < e then g b k else g' b (k - e)) := by
  unfold concatE
  rw [hA.lead, hA.e, hA.n, hA.l, hB.lead, hB.e, hB.n, hB.l, if_neg (by simp)]
  refine ⟨_, rfl, rfl, rfl, rfl, rfl, fun b hb k hk i hi t => ?_⟩
  rw [at_of _ _ _ _ _ _ _ _ hi]
  split
  · exact hA.val b hb k (by assumption) i hi t
  · exact hB.val b hb _ (by omega) i hi t

theorem pick_ne {d i : Nat} (h : d ≠ 1) : pick d i = i := by simp [pick, h]

theorem map2_rep {α β γ : Type} (f : α → β → γ) {A : BArr α} {B : BArr β} {lead : List Nat} {e n l : Nat}
    {g : Nat → Nat → Nat → Nat → α} {g' : Nat → Nat → Nat → Nat → β} (hA : Rep A lead e n l g) (hB : Rep B lead e n l g')
    (hn : n ≠ 1) : ∃ C, map2 f A B = .ok C ∧ Rep C lead e n l (fun b k i t => f (g b k i t) (g' b k i t)) := by
  unfold map2
  rw [hA.lead, hA.e, hA.n, hA.l, hB.lead, hB.e, hB.n, hB.l, bdim_self, bdim_self]
  simp only [ne_eq, not_true_eq_false, or_self, if_false]
  refine ⟨_, rfl, rfl, rfl, rfl, rfl, fun b hb k hk i hi t => ?_⟩
  rw [at_of _ _ _ _ _ _ _ _ hi, pick_lt hi, pick_ne hn, hA.val b hb k hk i hi, hB.val b hb k hk i hi]

theorem mapRow_rep {α β : Type} (f : α → Nat → β) {A : BArr α} {lead : List Nat} {e n l : Nat} {g : Nat → Nat → Nat → Nat → α}
    (hA : Rep A lead e n l g) {row : List Nat} (hr : row.length = l) :
    ∃ C, mapRow f A row = .ok C ∧ Rep C lead e n l (fun b k i t => f (g b k i t) (row.getD i 0)) := by
  unfold mapRow
  rw [hA.l, hr, bdim_self]
  refine ⟨_, rfl, hA.lead, hA.e, hA.n, rfl, fun b hb k hk i hi t => ?_⟩
  rw [at_of _ _ _ _ _ _ _ _ hi, pick_lt hi, hA.val b hb k hk i hi]

/-- The part of a key that a kernel reads. -/
theorem keyPart_get {A : Arr Nat} {N part : Nat} (he : 0 < A.e) (hp : part < N) :
    (clampParts N ((List.range A.e).map (CkksObj.keyPart A))).getD part (fun _ _ => 0) =
      fun i p => A.get (min part (A.e - 1)) (pick A.n p) (pick A.l i) := by
  have hlast : ((List.range A.e).map (CkksObj.keyPart A)).getLast? = some (CkksObj.keyPart A (A.e - 1)) := by
    rw [List.getLast?_map, List.getLast?_range]
    simp [Nat.ne_of_gt he]
  unfold clampParts
  rw [hlast]
  simp only
  rcases Nat.lt_or_ge part A.e with h | h
  · rw [List.getD_append _ _ _ _ (by simpa using h), List.getD_eq_getElem _ _ (by simpa using h), List.getElem_map,
      List.getElem_range, Nat.min_eq_left (by omega)]
    rfl
  · rw [List.getD_append_right _ _ _ _ (by simpa using h), List.getD_eq_getElem _ _ (by simp; omega), List.getElem_replicate,
      Nat.min_eq_right (by omega)]
    rfl

theorem keyProduct_rep {K : CkksMul.Kernel} {A : Arr Nat} {N part : Nat} {X : BArr Nat} {lead : List Nat} {n : Nat}
    {P : Nat → Nat → Nat → Nat → Nat} (hX : Rep X lead 1 n (K.moduliQ ++ K.moduliP).length P) (he : 0 < A.e) (hp : part < N)
    (hn : n ≠ 1) (hAn : A.n = n ∨ A.n = 1) (hAl : A.l = (K.moduliQ ++ K.moduliP).length ∨ A.l = 1) :
    ∃ Y, keyProduct K A part X = .ok Y ∧ Rep Y lead 1 n (K.moduliQ ++ K.moduliP).length (fun b k i t =>
      modularReduction (mul64 (P b k i t)
        ((clampParts N ((List.range A.e).map (CkksObj.keyPart A))).getD part (fun _ _ => 0) i t))
        (precompute ((K.moduliQ ++ K.moduliP).getD i 0))) := by
  have hb1 : bdim n A.n = .ok n := by
    unfold bdim
    rcases hAn with h | h <;> simp [h] <;> omega
  have hb2 : bdim (K.moduliQ ++ K.moduliP).length A.l = .ok (K.moduliQ ++ K.moduliP).length := by
    unfold bdim
    generalize (K.moduliQ ++ K.moduliP).length = L at hAl ⊢
    rcases hAl with h | h <;> rw [h] <;> split_ifs <;> simp_all
  unfold keyProduct keyPart
  rw [if_neg (by omega), hX.lead, hX.e, hX.n, hX.l, keyPart_get he hp]
  simp only [bind, Except.bind, hb1, hb2]
  apply mapRow_rep (fun x m => modularReduction x (precompute m)) _ rfl
  refine ⟨rfl, rfl, rfl, rfl, fun b hb k hk i hi t => ?_⟩
  rw [at_of _ _ _ _ _ _ _ _ hi, pick_ne hn, pick_lt hi, hX.val b hb k hk i hi t]

theorem nttPart_getD (K : CkksMul.Kernel) (idx : List Nat) {j : Nat} (hj : j < idx.length) :
    (nttPart K idx).getD j (0, noTables) = ((K.moduliQ ++ K.moduliP).getD (idx.getD j 0) 0, K.tables.getD (idx.getD j 0) noTables) := by
  unfold nttPart
  rw [List.getD_eq_getElem _ _ (by simpa using hj), List.getElem_map, List.getD_eq_getElem _ _ hj]

theorem zip_getD' (a : List Nat) (t : List Tables) (h : a.length ≤ t.length) {i : Nat} (hi : i < a.length) :
    (a.zip t).getD i (0, noTables) = (a.getD i 0, t.getD i noTables) := by
  rw [List.getD_eq_getElem _ _ (by simp; omega), List.getElem_zip, List.getD_eq_getElem _ _ hi, List.getD_eq_getElem _ _ (by omega)]

/-- One part of the loop. -/
theorem extendPart_rep {K : CkksMul.Kernel} (hs : MulKernels.Shape K) {part : Nat} (hp : part + 1 < K.control.length)
    {last coeffs : BArr Nat} {lead : List Nat} {d : Nat → CkksKeys.Mat} (hpos : 0 < lead.prod * (K.r * K.c))
    (hl : Rep last lead 1 (K.r * K.c) K.moduliQ.length (fun b _ => d b))
    (hc : Rep coeffs lead 1 (K.r * K.c) K.moduliQ.length
      (fun b _ i => inttFlat K.r K.c (K.moduliQ.getD i 0) (K.tables.getD i noTables) (d b i)))
    {P : Nat → CkksKeys.Mat} (h : ∀ b, b < lead.prod → CkksMul.extendPart K part (d b) = .ok (P b)) :
    ∃ X, extendPart K part last coeffs = .ok X ∧
      Rep X lead 1 (K.r * K.c) (K.moduliQ ++ K.moduliP).length (fun b _ => P b) := by
  obtain ⟨st, hst⟩ : ∃ st, K.control[part + 1]? = some st := ⟨_, List.getElem?_eq_getElem hp⟩
  have hst' : K.control.getD (part + 1) ([], []) = st := by rw [List.getD_eq_getElem?_getD, hst]; rfl
  have htail : K.control.tail[part]? = some st := by rw [List.getElem?_tail]; exact hst
  have hmem : st ∈ K.control.tail := List.mem_of_getElem? htail
  obtain ⟨hsel, hperm⟩ := hs.part st hmem
  have hlen : st.1.length + st.2.length = K.moduliQ.length + K.moduliP.length := by
    have := hperm.length_eq
    rwa [List.length_append, List.length_range] at this
  have hres : K.restore.getD part [] = restoreIndex (st.1 ++ st.2) := by
    rw [hs.restore, List.getD_eq_getElem?_getD, List.getElem?_map, htail]; rfl
  have hperm' : (st.1 ++ st.2).Perm (List.range (st.1 ++ st.2).length) := by
    rw [List.length_append, hlen]; exact hperm
  obtain ⟨all, hall⟩ : ∃ all, all = K.moduliQ ++ K.moduliP := ⟨_, rfl⟩
  have hL : all.length = K.moduliQ.length + K.moduliP.length := by rw [hall, List.length_append]
  have hsel' : ∀ j, j < st.1.length → st.1.getD j 0 < K.moduliQ.length := fun j hj => hsel _ (CkksKeys.getD_mem hj)
  -- the conversions of the single entries
  have hconv : ∀ b, ∃ conv, b < lead.prod → basisChangeMat (K.r * K.c) (st.1.map (fun i => all.getD i 0))
      (st.2.map (fun i => all.getD i 0)) (fun j => inttFlat K.r K.c (K.moduliQ.getD (st.1.getD j 0) 0)
        (K.tables.getD (st.1.getD j 0) noTables) (d b (st.1.getD j 0))) = .ok conv := by
    intro b
    by_cases hb : b < lead.prod
    · have h1 := h b hb
      unfold CkksMul.extendPart at h1
      rw [hst', ← hall] at h1
      obtain ⟨conv, h2, -⟩ := CkksObj.bind_ok_iff.1 h1
      exact ⟨conv, fun _ => h2⟩
    · exact ⟨fun _ _ => 0, fun h => absurd h hb⟩
  choose conv hconv using hconv
  have hP : ∀ b, b < lead.prod → P b = fun i =>
      (fun pos => if pos < st.1.length then d b (st.1.getD pos 0) else
        nttFlat K.r K.c (all.getD (st.2.getD (pos - st.1.length) 0) 0) (K.tables.getD (st.2.getD (pos - st.1.length) 0) noTables)
          (conv b (pos - st.1.length))) ((restoreIndex (st.1 ++ st.2)).getD i 0) := by
    intro b hb
    have h1 := h b hb
    unfold CkksMul.extendPart at h1
    rw [hst', ← hall, hres] at h1
    dsimp only at h1
    rw [hconv b hb] at h1
    exact (Except.ok.inj h1).symm
  have htk := takeL_rep hc hsel'
  obtain ⟨B1, hB1, r1⟩ := basisChange_rep (original := st.1.map (fun i => all.getD i 0)) (target := st.2.map (fun i => all.getD i 0))
    (A := takeL coeffs st.1) (lead := lead) (e := 1) (n := K.r * K.c)
    (g := fun b _ j => inttFlat K.r K.c (K.moduliQ.getD (st.1.getD j 0) 0) (K.tables.getD (st.1.getD j 0) noTables)
      (d b (st.1.getD j 0))) (by rw [List.length_map]; exact htk)
    (out := fun b _ => conv b) (fun b hb _ _ => hconv b hb)
  obtain ⟨B2, hB2, r2⟩ := reshapeRows_rep r1 (by rw [Nat.mul_one]; exact hpos)
  rw [List.length_map] at r2
  obtain ⟨B3, hB3, r3⟩ := transform_rep nttFlat K.r K.c (T := nttPart K st.2) r2 (by simp [nttPart])
  obtain ⟨B4, hB4, r4⟩ := concatL_rep (takeL_rep hl hsel') r3
  have r5 := takeL_rep r4 (idx := restoreIndex (st.1 ++ st.2)) (by
    intro j hj
    rw [(restoreIndex_spec _ hperm').1] at hj
    have := (restoreIndex_get _ hperm' j hj).1
    rwa [List.length_append] at this)
  refine ⟨takeL B4 (restoreIndex (st.1 ++ st.2)), ?_, ?_⟩
  · unfold extendPart
    rw [hst', hres, ← hall]
    dsimp only
    rw [hB1]
    simp only [bind, Except.bind]
    rw [hB2]
    simp only [hB3, hB4]
    rfl
  · rw [(restoreIndex_spec _ hperm').1, List.length_append, hlen, ← hL, hall] at r5
    refine r5.congr ?_
    intro b hb k hk i hi t
    rw [hP b hb]
    have hpos' : (restoreIndex (st.1 ++ st.2)).getD i 0 < st.1.length + st.2.length := by
      have := (restoreIndex_get _ hperm' i (by rw [List.length_append, hlen, ← hL, hall]; exact hi)).1
      rwa [List.length_append] at this
    dsimp only
    generalize (restoreIndex (st.1 ++ st.2)).getD i 0 = pos at hpos' ⊢
    split
    · rfl
    · rw [nttPart_getD K st.2 (by omega), hall]

/-- The product of the extended part with a part of the key, reduced. -/
def term (all : List Nat) (P key : CkksKeys.Mat) : CkksKeys.Mat := fun i t =>
  modularReduction (mul64 (P i t) (key i t)) (precompute (all.getD i 0))

/-- The parts of a key array as a kernel of `N` parts reads them. -/
def keyList (A : Arr Nat) (N : Nat) : List CkksKeys.Mat := clampParts N ((List.range A.e).map (CkksObj.keyPart A))

/-- What the key arrays must look like. -/
structure KeyFits (K : CkksMul.Kernel) (A : Arr Nat) : Prop where
  e : 0 < A.e
  n : A.n = K.r * K.c ∨ A.n = 1
  l : A.l = (K.moduliQ ++ K.moduliP).length ∨ A.l = 1

theorem loop_rep {K : CkksMul.Kernel} (hs : MulKernels.Shape K) {evk : CkksObj.EvkObj} {last coeffs : BArr Nat} {lead : List Nat}
    {d : Nat → CkksKeys.Mat} (hpos : 0 < lead.prod * (K.r * K.c)) (hn : K.r * K.c ≠ 1)
    (hl : Rep last lead 1 (K.r * K.c) K.moduliQ.length (fun b _ => d b))
    (hc : Rep coeffs lead 1 (K.r * K.c) K.moduliQ.length
      (fun b _ i => inttFlat K.r K.c (K.moduliQ.getD i 0) (K.tables.getD i noTables) (d b i)))
    (ha : KeyFits K evk.a) (hb : KeyFits K evk.b) {P : Nat → Nat → CkksKeys.Mat} :
    ∀ (L : List Nat), (∀ part ∈ L, part + 1 < K.control.length ∧
      ∀ b, b < lead.prod → CkksMul.extendPart K part (d b) = .ok (P b part)) →
    ∀ (x y : BArr Nat) (gx gy : Nat → Nat → Nat → Nat → Nat), Rep x lead 1 (K.r * K.c) (K.moduliQ ++ K.moduliP).length gx →
      Rep y lead 1 (K.r * K.c) (K.moduliQ ++ K.moduliP).length gy →
    ∃ x' y', loop K evk last coeffs L (some (x, y)) = .ok (some (x', y')) ∧
      Rep x' lead 1 (K.r * K.c) (K.moduliQ ++ K.moduliP).length (fun b k i t => L.foldl (fun acc part => add64 acc
        (term (K.moduliQ ++ K.moduliP) (P b part) ((keyList evk.b (K.control.length - 1)).getD part (fun _ _ => 0)) i t)) (gx b k i t)) ∧
      Rep y' lead 1 (K.r * K.c) (K.moduliQ ++ K.moduliP).length (fun b k i t => L.foldl (fun acc part => add64 acc
        (term (K.moduliQ ++ K.moduliP) (P b part) ((keyList evk.a (K.control.length - 1)).getD part (fun _ _ => 0)) i t)) (gy b k i t)) := by
  intro L
  induction L with
  | nil => intro _ x y gx gy hx hy; exact ⟨x, y, rfl, hx, hy⟩
  | cons part L ih =>
    intro hL x y gx gy hx hy
    obtain ⟨hp, hP⟩ := hL part List.mem_cons_self
    obtain ⟨X, hX, rX⟩ := extendPart_rep hs hp hpos hl hc hP
    obtain ⟨B, hB, rB⟩ := keyProduct_rep (N := K.control.length - 1) (part := part) rX hb.e (by omega) hn hb.n hb.l
    obtain ⟨A, hA, rA⟩ := keyProduct_rep (N := K.control.length - 1) (part := part) rX ha.e (by omega) hn ha.n ha.l
    obtain ⟨x1, hx1, rx1⟩ := map2_rep add64 hx rB hn
    obtain ⟨y1, hy1, ry1⟩ := map2_rep add64 hy rA hn
    obtain ⟨x', y', h1, h2, h3⟩ := ih (fun q hq => hL q (List.mem_cons_of_mem _ hq)) x1 y1 _ _ rx1 ry1
    refine ⟨x', y', ?_, h2, h3⟩
    rw [loop]
    simp only [bind, Except.bind, hX, hB, hA, hx1, hy1]
    exact h1

theorem loop_start {K : CkksMul.Kernel} (hs : MulKernels.Shape K) {evk : CkksObj.EvkObj} {last coeffs : BArr Nat} {lead : List Nat}
    {d : Nat → CkksKeys.Mat} (hpos : 0 < lead.prod * (K.r * K.c)) (hn : K.r * K.c ≠ 1)
    (hl : Rep last lead 1 (K.r * K.c) K.moduliQ.length (fun b _ => d b))
    (hc : Rep coeffs lead 1 (K.r * K.c) K.moduliQ.length
      (fun b _ i => inttFlat K.r K.c (K.moduliQ.getD i 0) (K.tables.getD i noTables) (d b i)))
    (ha : KeyFits K evk.a) (hb : KeyFits K evk.b) {P : Nat → Nat → CkksKeys.Mat} (hN : 2 ≤ K.control.length)
    (hP : ∀ part, part + 1 < K.control.length → ∀ b, b < lead.prod → CkksMul.extendPart K part (d b) = .ok (P b part)) :
    ∃ x y, loop K evk last coeffs (List.range (K.control.length - 1)) none = .ok (some (x, y)) ∧
      Rep x lead 1 (K.r * K.c) (K.moduliQ ++ K.moduliP).length (fun b _ i t =>
        (List.range (K.control.length - 1)).foldl (fun acc part => add64 acc (term (K.moduliQ ++ K.moduliP) (P b part)
          ((keyList evk.b (K.control.length - 1)).getD part (fun _ _ => 0)) i t)) 0) ∧
      Rep y lead 1 (K.r * K.c) (K.moduliQ ++ K.moduliP).length (fun b _ i t =>
        (List.range (K.control.length - 1)).foldl (fun acc part => add64 acc (term (K.moduliQ ++ K.moduliP) (P b part)
          ((keyList evk.a (K.control.length - 1)).getD part (fun _ _ => 0)) i t)) 0) := by
  obtain ⟨M, hM⟩ : ∃ M, K.control.length - 1 = M + 1 := ⟨K.control.length - 2, by omega⟩
  have hr : List.range (K.control.length - 1) = 0 :: List.range' 1 M := by
    rw [hM, List.range_eq_range', List.range'_succ]
  have hz : ∀ (a b : Nat) c, add64 0 (modularReduction (mul64 a b) c) = modularReduction (mul64 a b) c := by
    intro a b c
    unfold add64
    rw [Nat.zero_add]
    apply Nat.mod_eq_of_lt
    have : modularReduction (mul64 a b) c < 2 ^ 32 := Nat.mod_lt _ (by norm_num)
    omega
  obtain ⟨X, hX, rX⟩ := extendPart_rep hs (part := 0) (by omega) hpos hl hc (hP 0 (by omega))
  obtain ⟨B, hB, rB⟩ := keyProduct_rep (N := K.control.length - 1) (part := 0) rX hb.e (by omega) hn hb.n hb.l
  obtain ⟨A, hA, rA⟩ := keyProduct_rep (N := K.control.length - 1) (part := 0) rX ha.e (by omega) hn ha.n ha.l
  obtain ⟨x, y, h1, h2, h3⟩ := loop_rep hs hpos hn hl hc ha hb (P := P) (List.range' 1 M) (by
    intro part hpart
    have := (List.mem_range'_1.1 hpart).2
    exact ⟨by omega, hP part (by omega)⟩) B A _ _ rB rA
  refine ⟨x, y, ?_, h2.congr ?_, h3.congr ?_⟩
  · rw [hr, loop]
    simp only [bind, Except.bind, hX, hB, hA]
    exact h1
  · intro b _ k _ i _ t
    rw [hr, List.foldl_cons]
    congr 1
    unfold term
    rw [hz]
    rfl
  · intro b _ k _ i _ t
    rw [hr, List.foldl_cons]
    congr 1
    unfold term
    rw [hz]
    rfl

theorem map_range'_getD (q p : List Nat) : (List.range' q.length p.length).map (fun i => (q ++ p).getD i 0) = p := by
  apply List.ext_getElem (by simp)
  intro i h1 h2
  rw [List.getElem_map, List.getElem_range', List.getD_append_right _ _ _ _ (by omega), List.getD_eq_getElem _ _ (by omega)]
  congr 1
  omega

theorem map_range_getD (q p : List Nat) : (List.range q.length).map (fun i => (q ++ p).getD i 0) = q := by
  apply List.ext_getElem (by simp)
  intro i h1 h2
  rw [List.getElem_map, List.getElem_range, List.getD_append _ _ _ _ (by omega), List.getD_eq_getElem _ _ (by omega)]

/-- The division by the extended moduli of one polynomial over all moduli, as in `CkksMul.relinearizeParts`. -/
def downOne (K : CkksMul.Kernel) (ks conv : CkksKeys.Mat) : CkksKeys.Mat := fun i p =>
  let m := K.moduliQ.getD i 0
  let new := nttFlat K.r K.c m (K.tables.getD i Rescale.noTables) (conv i) p
  let sub := if ks i p < new then (ks i p + m + (2 ^ 32 - new)) % 2 ^ 32 else ks i p - new
  mul64 sub (K.pInv.getD i 0) % m

theorem modDown_rep {K : CkksMul.Kernel} (hs : MulKernels.Shape K) (hpi : K.pInv.length = K.moduliQ.length) {core : BArr Nat}
    {lead : List Nat} {e : Nat} {ks conv : Nat → Nat → CkksKeys.Mat} (hpos : 0 < lead.prod * e * (K.r * K.c)) (hn : K.r * K.c ≠ 1)
    (hcore : Rep core lead e (K.r * K.c) (K.moduliQ ++ K.moduliP).length ks)
    (hconv : ∀ b, b < lead.prod → ∀ k, k < e → basisChangeMat (K.r * K.c) K.moduliP K.moduliQ (fun j =>
        inttFlat K.r K.c (K.moduliP.getD j 0) (K.tables.getD (K.moduliQ.length + j) Rescale.noTables) (ks b k (K.moduliQ.length + j))) =
      .ok (conv b k)) :
    ∃ D, modDown K core = .ok D ∧ Rep D lead e (K.r * K.c) K.moduliQ.length (fun b k => downOne K (ks b k) (conv b k)) := by
  have hL : (K.moduliQ ++ K.moduliP).length = K.moduliQ.length + K.moduliP.length := List.length_append
  have ht := hs.tables
  have hst : K.control.getD 0 ([], []) = (List.range' K.moduliQ.length K.moduliP.length, List.range K.moduliQ.length) := by
    have := hs.head
    cases hc : K.control with
    | nil => rw [hc] at this; simp at this
    | cons a l => rw [hc] at this; simpa using this
  have r0 := sliceL_rep hcore (start := K.moduliQ.length) (stop := K.moduliQ.length + K.moduliP.length) (by omega)
  rw [Nat.add_sub_cancel_left] at r0
  obtain ⟨B1, hB1, r1⟩ := reshapeRows_rep r0 hpos
  obtain ⟨B2, hB2, r2⟩ := transform_rep inttFlat K.r K.c (T := nttExtend K) r1 (by simp [nttExtend]; omega)
  obtain ⟨B3, hB3, r3⟩ := basisChange_rep (original := K.moduliP) (target := K.moduliQ) (out := conv) r2 (by
    intro b hb k hk
    rw [← hconv b hb k hk]
    apply MulKernels.basisChangeMat_congr
    intro j hj
    unfold nttExtend
    rw [zip_getD' _ _ (by simp; omega) hj]
    dsimp only
    rw [List.getD_eq_getElem?_getD (l := K.tables.drop _), List.getElem?_drop, List.getD_eq_getElem?_getD (l := K.tables)])
  obtain ⟨B4, hB4, r4⟩ := reshapeRows_rep r3 hpos
  obtain ⟨B5, hB5, r5⟩ := transform_rep nttFlat K.r K.c (T := nttCurrent K) r4 (by simp [nttCurrent]; omega)
  have r6 := sliceL_rep hcore (start := 0) (stop := K.moduliQ.length) (by omega)
  rw [Nat.sub_zero] at r6
  obtain ⟨B7, hB7, r7⟩ := map2_rep Prod.mk r6 r5 hn
  obtain ⟨B8, hB8, r8⟩ := mapRow_rep correct r7 (row := K.moduliQ) rfl
  obtain ⟨B9, hB9, r9⟩ := mapRow_rep mul64 r8 (row := K.pInv) hpi
  obtain ⟨B10, hB10, r10⟩ := mapRow_rep (fun x m => x % m) r9 (row := K.moduliQ) rfl
  refine ⟨B10, ?_, r10.congr ?_⟩
  · unfold modDown
    rw [hst]
    simp only [map_range'_getD, map_range_getD, bind, Except.bind, hB1, hB2, hB3, hB4, hB5, hB7, hB8, hB9]
    exact hB10
  · intro b hb k hk i hi t
    unfold downOne correct nttCurrent
    rw [zip_getD' _ _ (by omega) hi]
    simp only [Nat.zero_add]

theorem mapM_get {β : Type} {f : Nat → Except String β} (dflt : β) : ∀ {n : Nat} {r : List β}, (List.range n).mapM f = .ok r →
    ∀ i, i < n → f i = .ok (r.getD i dflt) := by
  intro n
  induction n with
  | zero => intro r _ i hi; omega
  | succ n ih =>
    intro r h i hi
    rw [List.range_succ, List.mapM_append] at h
    simp only [bind, Except.bind, pure, Except.pure, List.mapM_cons, List.mapM_nil] at h
    cases h1 : (List.range n).mapM f with
    | error e => rw [h1] at h; simp at h
    | ok r' =>
      rw [h1] at h
      simp only at h
      cases h2 : f n with
      | error e => rw [h2] at h; simp at h
      | ok y =>
        rw [h2] at h
        simp only [Except.ok.injEq] at h
        have hlen : r'.length = n := by rw [MulKernels.mapM_length _ _ _ h1, List.length_range]
        subst h
        rcases Nat.lt_or_ge i n with hin | hin
        · rw [List.getD_append _ _ _ _ (by omega)]
          exact ih h1 i hin
        · obtain rfl : i = n := by omega
          rw [List.getD_append_right _ _ _ _ (by omega), hlen, Nat.sub_self]
          exact h2

/-- What a successful `CkksMul.relinearize` computed. -/
theorem relinearize_inv {K : CkksMul.Kernel} {d0 d1 d2 : CkksKeys.Mat} {a b : Arr Nat} {ms : List Nat} {R : CkksKeys.Mat × CkksKeys.Mat}
    (h : CkksMul.relinearize (some K) d0 d1 d2
      ⟨(List.range a.e).map (CkksObj.keyPart a), (List.range b.e).map (CkksObj.keyPart b), ms⟩ = .ok R) :
    ∃ (P : Nat → CkksKeys.Mat) (conv : Nat → CkksKeys.Mat),
      (∀ part, part + 1 < K.control.length → CkksMul.extendPart K part d2 = .ok (P part)) ∧
      (∀ k, k < 2 → basisChangeMat (K.r * K.c) K.moduliP K.moduliQ (fun j =>
        inttFlat K.r K.c (K.moduliP.getD j 0) (K.tables.getD (K.moduliQ.length + j) Rescale.noTables) (fun t =>
          modularReduction ((List.range (K.control.length - 1)).foldl (fun acc part => add64 acc
            (term (K.moduliQ ++ K.moduliP) (P part) ((keyList (if k = 0 then b else a) (K.control.length - 1)).getD part (fun _ _ => 0))
              (K.moduliQ.length + j) t)) 0) (precompute ((K.moduliQ ++ K.moduliP).getD (K.moduliQ.length + j) 0)))) = .ok (conv k)) ∧
      ∀ k, k < 2 → (if k = 0 then R.1 else R.2) = fun i p =>
        let m := K.moduliQ.getD i 0
        let result := ((if k = 0 then d0 else d1) i p + downOne K (fun i t =>
          modularReduction ((List.range (K.control.length - 1)).foldl (fun acc part => add64 acc
            (term (K.moduliQ ++ K.moduliP) (P part) ((keyList (if k = 0 then b else a) (K.control.length - 1)).getD part (fun _ _ => 0))
              i t)) 0) (precompute ((K.moduliQ ++ K.moduliP).getD i 0))) (conv k) i p) % 2 ^ 32
        if result ≥ m then result - m else result := by
  unfold CkksMul.relinearize relinearizeParts at h
  simp only [Option.map_some, Option.getD_some, clampKeys] at h
  by_cases hlen : (clampParts (K.control.length - 1) ((List.range a.e).map (CkksObj.keyPart a))).length < K.control.length - 1 ∨
      (clampParts (K.control.length - 1) ((List.range b.e).map (CkksObj.keyPart b))).length < K.control.length - 1
  · simp only [hlen, if_true] at h
    simp [bind, Except.bind, throw, throwThe, MonadExceptOf.throw] at h
  simp only [hlen, if_false] at h
  obtain ⟨parts, hparts, h⟩ := CkksObj.bind_ok_iff.1 h
  obtain ⟨down0, hd0, h⟩ := CkksObj.bind_ok_iff.1 h
  obtain ⟨down1, hd1, h⟩ := CkksObj.bind_ok_iff.1 h
  obtain ⟨c0, hc0, hd0⟩ := CkksObj.bind_ok_iff.1 hd0
  obtain ⟨c1, hc1, hd1⟩ := CkksObj.bind_ok_iff.1 hd1
  refine ⟨fun part => parts.getD part (fun _ _ => 0), fun k => if k = 0 then c0 else c1, ?_, ?_, ?_⟩
  · intro part hp
    exact mapM_get (fun _ _ => 0) hparts part (by omega)
  · intro k hk
    rcases (by omega : k = 0 ∨ k = 1) with rfl | rfl
    · exact hc0
    · exact hc1
  · intro k hk
    rw [← Except.ok.inj h, ← Except.ok.inj hd0, ← Except.ok.inj hd1]
    rcases (by omega : k = 0 ∨ k = 1) with rfl | rfl <;> rfl

/-- A batch that fits is relinearised entry by entry. -/
theorem relinearize_rep {K : CkksMul.Kernel} (hs : MulKernels.Shape K) (hpi : K.pInv.length = K.moduliQ.length)
    (hN : 2 ≤ K.control.length) (hn : K.r * K.c ≠ 1) {ct : BArr Nat} {evk : CkksObj.EvkObj} {lead : List Nat} {e : Nat} (he : 3 ≤ e)
    (hpos : 0 < lead.prod * (K.r * K.c)) {d : Nat → Nat → CkksKeys.Mat} (hct : Rep ct lead e (K.r * K.c) K.moduliQ.length d)
    (ha : KeyFits K evk.a) (hb : KeyFits K evk.b) {R : Nat → CkksKeys.Mat × CkksKeys.Mat}
    (hR : ∀ b, b < lead.prod → CkksMul.relinearize (some K) (d b 0) (d b 1) (d b 2)
      ⟨(List.range evk.a.e).map (CkksObj.keyPart evk.a), (List.range evk.b.e).map (CkksObj.keyPart evk.b), evk.moduli⟩ = .ok (R b)) :
    ∃ X, relinearize (some K) ct evk = .ok X ∧
      Rep X lead 2 (K.r * K.c) K.moduliQ.length (fun b k => if k = 0 then (R b).1 else (R b).2) := by
  have ht := hs.tables
  rw [List.length_append] at ht
  have hinv : ∀ b, ∃ P conv, b < lead.prod → _ := fun b => by
    by_cases hb : b < lead.prod
    · obtain ⟨P, conv, h⟩ := relinearize_inv (hR b hb)
      exact ⟨P, conv, fun _ => h⟩
    · exact ⟨fun _ _ _ => 0, fun _ _ _ => 0, fun h => absurd h hb⟩
  choose P conv hinv using hinv
  have rl := sliceE_rep hct (start := 2) (stop := 3) he
  have rl' : Rep (sliceE ct 2 3) lead 1 (K.r * K.c) K.moduliQ.length (fun b _ => d b 2) := rl.congr (by
    intro b _ k hk i _ t
    obtain rfl : k = 0 := by omega
    rfl)
  obtain ⟨B1, hB1, r1⟩ := reshapeRows_rep rl' (by rw [Nat.mul_one]; exact hpos)
  obtain ⟨B2, hB2, r2⟩ := transform_rep inttFlat K.r K.c (T := nttCurrent K) r1 (by simp [nttCurrent]; omega)
  have r2' : Rep B2 lead 1 (K.r * K.c) K.moduliQ.length
      (fun b _ i => inttFlat K.r K.c (K.moduliQ.getD i 0) (K.tables.getD i noTables) (d b 2 i)) := r2.congr (by
    intro b _ k _ i hi t
    unfold nttCurrent
    rw [zip_getD' _ _ (by omega) hi])
  obtain ⟨x, y, hloop, rx, ry⟩ := loop_start hs hpos hn rl' r2' ha hb (P := P) hN (fun part hp b hb => (hinv b hb).1 part hp)
  obtain ⟨k0, hk0, rk0⟩ := mapRow_rep (fun x m => modularReduction x (precompute m)) rx (row := K.moduliQ ++ K.moduliP) rfl
  obtain ⟨k1, hk1, rk1⟩ := mapRow_rep (fun x m => modularReduction x (precompute m)) ry (row := K.moduliQ ++ K.moduliP) rfl
  obtain ⟨core, hcore, rcore⟩ := concatE_rep rk0 rk1
  obtain ⟨ks, hks⟩ : ∃ ks : Nat → Nat → CkksKeys.Mat, ks = fun b k i t =>
      modularReduction ((List.range (K.control.length - 1)).foldl (fun acc part => add64 acc
        (term (K.moduliQ ++ K.moduliP) (P b part)
          ((keyList (if k = 0 then evk.b else evk.a) (K.control.length - 1)).getD part (fun _ _ => 0)) i t)) 0)
        (precompute ((K.moduliQ ++ K.moduliP).getD i 0)) := ⟨_, rfl⟩
  have rcore' : Rep core lead 2 (K.r * K.c) (K.moduliQ ++ K.moduliP).length ks := rcore.congr (by
    intro b _ k hk i _ t
    rw [hks]
    rcases (by omega : k = 0 ∨ k = 1) with rfl | rfl <;> rfl)
  obtain ⟨D, hD, rD⟩ := modDown_rep hs hpi (conv := conv) (by
    calc 0 < lead.prod * (K.r * K.c) * 2 := by omega
      _ = lead.prod * 2 * (K.r * K.c) := by ring) hn rcore' (by
    intro b hb k hk
    have := (hinv b hb).2.1 k hk
    rw [hks]
    exact this)
  have rs := sliceE_rep hct (start := 0) (stop := 2) (by omega)
  obtain ⟨S, hS, rS⟩ := map2_rep (fun x y => (x + y) % 2 ^ 32) rs rD hn
  obtain ⟨X, hX, rX⟩ := mapRow_rep (fun x m => if x ≥ m then x - m else x) rS (row := K.moduliQ) rfl
  refine ⟨X, ?_, rX.congr ?_⟩
  · unfold relinearize
    simp only [bind, Except.bind, hB1, hB2, hloop, hk0, hk1, hcore, hD, hS]
    exact hX
  · intro b hb k hk i hi t
    have := congrFun (congrFun ((hinv b hb).2.2 k hk) i) t
    rw [hks]
    rcases (by omega : k = 0 ∨ k = 1) with rfl | rfl
    · exact this.symm
    · exact this.symm

theorem precomputeMul_more {original extend : List Nat} {dnum r c deg : Nat} {K : CkksMul.Kernel}
    (h : precomputeMul original extend dnum r c deg = .ok K) :
    K.pInv.length = K.moduliQ.length ∧ 2 ≤ K.control.length ∧ K.r = r ∧ K.c = c := by
  unfold precomputeMul at h
  dsimp only at h
  split at h
  · simp at h
  · obtain ⟨q, hq⟩ : ∃ q, q = dropLastModuli original deg := ⟨_, rfl⟩
    rw [← hq] at h
    simp only [bind, Except.bind, pure, Except.pure] at h
    cases h1 : controlIndices q.length extend.length dnum with
    | error e => rw [h1] at h; simp at h
    | ok control =>
      rw [h1] at h
      simp only at h
      split at h
      · simp at h
      · split at h
        · simp at h
        · rename_i tables ht
          split at h
          · simp at h
          · rename_i pInv hp
            simp only [Except.ok.injEq] at h
            subst h
            obtain ⟨hq0, hd0⟩ := MulKernels.controlIndices_pos h1
            obtain ⟨alpha, ha, ha0, hc⟩ := controlIndices_eq q.length extend.length dnum hq0 hd0
            rw [hc] at h1
            simp only [Except.ok.injEq] at h1
            refine ⟨MulKernels.mapM_length _ _ _ hp, ?_, rfl, rfl⟩
            show 2 ≤ control.length
            rw [← h1]
            have : 0 < (q.length + alpha - 1) / alpha := Nat.div_pos (by omega) ha0
            simp only [List.length_cons, List.length_map, List.length_range]
            omega

end Verif.RelinBatch
