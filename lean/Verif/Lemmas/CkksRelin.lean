import Verif.Props.CkksSwitch

/-! # Lemmas for `Mul.relinearize` -/

namespace Verif.CkksMul
open Verif.Barrett Verif.NttBat Verif.Slots Verif.CkksKeys Verif.CkksMath Verif.Crt Verif.Props

variable {kr kc : Nat}

theorem block_eq (numQ dnum part : Nat) : block (partLen numQ dnum) numQ part = partIdx numQ dnum part := by
  unfold block partIdx
  congr 1
  omega

/-- The inverse of `P` modulo `m`. -/
def pInvFor (p : List Nat) (m : Nat) : Nat :=
  match invMod (Crt.product p : Int) m with
  | .ok y => y.toNat
  | .error _ => 0

theorem coprime_prod {q p : List Nat} (h : Basis kr kc q p) {m : Nat} (hm : m ∈ q) : Nat.Coprime p.prod m := by
  rw [Nat.coprime_comm]
  apply Nat.coprime_list_prod_right_iff.2
  intro x hx
  have h1 := (h.four m (List.mem_append_left _ hm)).prime
  have h2 := (h.four x (List.mem_append_right _ hx)).prime
  refine (Nat.coprime_primes h1 h2).2 ?_
  rintro rfl
  exact (List.nodup_append'.1 h.nodup).2.2 hm hx

theorem pInvFor_spec {q p : List Nat} (h : Basis kr kc q p) {m : Nat} (hm : m ∈ q) :
    (invMod (Crt.product p : Int) m).map Int.toNat = .ok (pInvFor p m) ∧ pInvFor p m < m ∧
      (p.prod : ZMod m) * (pInvFor p m : ZMod m) = 1 := by
  have hpos := (h.four m (List.mem_append_left _ hm)).prime.pos
  obtain ⟨y, h1, h2, h3, h4⟩ := invMod_ok (Crt.product p : Int) m hpos (by
    rw [Int.gcd_natCast_natCast, product_eq]; exact coprime_prod h hm)
  unfold pInvFor
  rw [h1]
  refine ⟨rfl, by simp only; omega, ?_⟩
  simp only
  rw [product_eq] at h4
  have : ((y.toNat : Nat) : ZMod m) = (y : ZMod m) := by
    conv_rhs => rw [← Int.toNat_of_nonneg h2]
    rw [Int.cast_natCast]
  rw [this]
  rwa [Int.cast_natCast] at h4

/-- The kernel returned by `precompute_constants`. -/
def kernelOf (kr kc : Nat) (q p : List Nat) (dnum : Nat) : Kernel where
  moduliQ := q
  moduliP := p
  r := 2 ^ kr
  c := 2 ^ kc
  control := (List.range' q.length p.length, List.range q.length) ::
    (List.range ((q.length + partLen q.length dnum - 1) / partLen q.length dnum)).map (fun part =>
      (partIdx q.length dnum part, (List.range (q.length + p.length)).filter
        (fun i => !(partIdx q.length dnum part).contains i)))
  restore := (List.range ((q.length + partLen q.length dnum - 1) / partLen q.length dnum)).map (fun part =>
      restoreIndex (partIdx q.length dnum part ++ (List.range (q.length + p.length)).filter
        (fun i => !(partIdx q.length dnum part).contains i)))
  tables := (q ++ p).map (tablesFor kr kc)
  pInv := q.map (pInvFor p)

theorem select_nodup {q p : List Nat} (h : Basis kr kc q p) (sel : List Nat) (hnd : sel.Nodup)
    (hsel : ∀ i ∈ sel, i < (q ++ p).length) : (sel.map (fun i => (q ++ p).getD i 0)).Nodup := by
  refine (List.nodup_map_iff_inj_on hnd).2 ?_
  intro i hi j hj hij
  rw [List.getD_eq_getElem _ _ (hsel i hi), List.getD_eq_getElem _ _ (hsel j hj)] at hij
  exact (List.Nodup.getElem_inj_iff h.nodup).1 hij

/-- Specification: `q` is `original` without its last `deg` entries (`deg` is positive). -/
def Dropped (original : List Nat) (deg : Nat) (q : List Nat) : Prop :=
  0 < deg ∧ ∃ last : List Nat, last.length = deg ∧ original = q ++ last

theorem Dropped.eq {original q : List Nat} {deg : Nat} (h : Dropped original deg q) : dropLastModuli original deg = q := by
  obtain ⟨h0, last, h1, rfl⟩ := h
  unfold dropLastModuli
  rw [if_neg (by omega), List.length_append, h1, Nat.add_sub_cancel, List.take_left]

theorem precomputeMul_ok {q p : List Nat} (h : Basis kr kc q p) (dnum : Nat) (hd : 0 < dnum) (original : List Nat)
    (deg : Nat) (hdrop : Dropped original deg q) :
    precomputeMul original p dnum (2 ^ kr) (2 ^ kc) deg = .ok (kernelOf kr kc q p dnum) := by
  have hq := List.length_pos_iff.2 h.neQ
  have hl : (q ++ p).length = q.length + p.length := List.length_append
  have hlt : ∀ m ∈ q ++ p, m < 2 ^ 31 := fun m hm => (h.four m hm).good.lt
  unfold precomputeMul
  rw [hdrop.eq]
  dsimp only
  rw [if_neg (by
    simp only [Bool.not_eq_true', Bool.and_eq_false_iff, not_or, Bool.not_eq_false, List.all_eq_true, decide_eq_true_eq]
    exact ⟨fun m hm => hlt m (List.mem_append_left _ hm), fun m hm => hlt m (List.mem_append_right _ hm)⟩)]
  obtain ⟨alpha, ha, ha0, hc⟩ := controlIndices_eq q.length p.length dnum hq hd
  have ha' : alpha = partLen q.length dnum := ha
  rw [hc]
  subst ha'
  simp only [block_eq]
  have hcrt : ∀ st ∈ (kernelOf kr kc q p dnum).control, (∀ i ∈ st.1, i < (q ++ p).length) ∧ st.1.Nodup := by
    intro st hst
    rcases List.mem_cons.1 hst with rfl | hst
    · exact ⟨fun i hi => by rw [List.mem_range'_1] at hi; omega, List.nodup_range'⟩
    · obtain ⟨part, -, rfl⟩ := List.mem_map.1 hst
      exact ⟨fun i hi => by have := mem_partIdx.1 hi; omega, by unfold partIdx; exact List.nodup_range'⟩
  obtain ⟨invs, hinv, -⟩ := mapM_ok (fun (st : List Nat × List Nat) => qHatInvModQ (st.1.map (fun i => (q ++ p).getD i 0)))
    (kernelOf kr kc q p dnum).control (by
      intro st hst
      obtain ⟨h1, h2⟩ := hcrt st hst
      have hmem : ∀ m ∈ st.1.map (fun i => (q ++ p).getD i 0), m ∈ q ++ p := by
        intro m hm
        obtain ⟨i, hi, rfl⟩ := List.mem_map.1 hm
        exact getD_mem (h1 i hi)
      obtain ⟨inv, h3, -⟩ := qHatInv_spec (pairwise_coprime (fun m hm => (h.four m (hmem m hm)).prime)
        (select_nodup h st.1 h2 h1)) (fun m hm => (h.four m (hmem m hm)).prime.pos)
      exact ⟨inv, h3⟩)
  simp only [bind, Except.bind, pure, Except.pure]
  unfold kernelOf at hinv
  simp only at hinv
  rw [hinv]
  simp only
  rw [mapM_eq_map _ (tablesFor kr kc) (q ++ p) (fun m hm => tablesFor_ok (h.four m hm))]
  simp only
  rw [mapM_eq_map _ (pInvFor p) q (fun m hm => (pInvFor_spec h hm).1)]
  simp only [List.tail_cons, List.map_map]
  rfl

theorem getD_tables {q p : List Nat} {i : Nat} (hi : i < (q ++ p).length) :
    ((q ++ p).map (tablesFor kr kc)).getD i Rescale.noTables = tablesFor kr kc ((q ++ p).getD i 0) := by
  rw [List.getD_eq_getElem _ _ (by simpa using hi), List.getElem_map, List.getD_eq_getElem _ _ hi]

/-- Number of parts actually used. -/
def partCount (numQ dnum : Nat) : Nat := (numQ + partLen numQ dnum - 1) / partLen numQ dnum

theorem partCount_spec {numQ dnum : Nat} (hq : 0 < numQ) (hd : 0 < dnum) :
    partCount numQ dnum ≤ dnum ∧ partCount numQ dnum ≤ numQ ∧
    (∀ part, part < partCount numQ dnum → part * partLen numQ dnum < numQ) ∧
    ∀ j, j < numQ → j / partLen numQ dnum < partCount numQ dnum := by
  have ha : 0 < partLen numQ dnum := Nat.div_pos (by omega) hd
  have hge : numQ ≤ dnum * partLen numQ dnum := by
    have h1 := Nat.div_add_mod (numQ + dnum - 1) dnum
    have h2 := Nat.mod_lt (numQ + dnum - 1) hd
    unfold partLen
    omega
  unfold partCount
  generalize partLen numQ dnum = a at *
  refine ⟨?_, ?_, ?_, ?_⟩
  · refine Nat.le_of_lt_succ (Nat.div_lt_of_lt_mul ?_)
    rw [Nat.mul_succ, Nat.mul_comm a]; omega
  · refine Nat.le_of_lt_succ (Nat.div_lt_of_lt_mul ?_)
    rw [Nat.mul_succ]
    have : numQ ≤ a * numQ := Nat.le_mul_of_pos_left _ ha
    omega
  · intro part hpt
    have : (part + 1) * a ≤ numQ + a - 1 := (Nat.le_div_iff_mul_le ha).1 hpt
    rw [Nat.add_mul] at this; omega
  · intro j hj
    rw [Nat.div_lt_iff_lt_mul ha]
    have h1 := Nat.div_add_mod (numQ + a - 1) a
    have h2 := Nat.mod_lt (numQ + a - 1) ha
    rw [Nat.mul_comm]; omega

/-- One part of the relinearisation. -/
theorem extendPart_spec {q p : List Nat} (h : Basis kr kc q p) (dnum : Nat) (hd : 0 < dnum) (part : Nat)
    (hpart : part < partCount q.length dnum) (last : Mat) (hlast : Reduced (kr + kc) q last) :
    ∃ (M : Mat) (D : Nat → Int), extendPart (kernelOf kr kc q p dnum) part last = .ok M ∧
      Reduced (kr + kc) (q ++ p) M ∧
      (∀ t, t < 2 ^ (kr + kc) → 0 ≤ D t ∧ D t < ((partIdx q.length dnum part).length *
        ((partIdx q.length dnum part).map (fun j => (q ++ p).getD j 0)).prod : Nat)) ∧
      (∀ l, l < (q ++ p).length → ringOf (kr + kc) ((q ++ p).getD l 0) (M l) = polyOf (kr + kc) ((q ++ p).getD l 0) D) ∧
      ∀ l, l ∈ partIdx q.length dnum part → ringOf (kr + kc) ((q ++ p).getD l 0) (M l) = ringOf (kr + kc) ((q ++ p).getD l 0) (last l) := by
  have hqpos := List.length_pos_iff.2 h.neQ
  have ha : 0 < partLen q.length dnum := Nat.div_pos (by omega) hd
  have hstart := (partCount_spec hqpos hd).2.2.1 part hpart
  have hl : (q ++ p).length = q.length + p.length := List.length_append
  obtain ⟨sel, hseldef⟩ : ∃ sel, sel = partIdx q.length dnum part := ⟨_, rfl⟩
  obtain ⟨out, houtdef⟩ : ∃ out, out = (List.range (q.length + p.length)).filter (fun i => !sel.contains i) := ⟨_, rfl⟩
  have hsel : ∀ j ∈ sel, j < q.length := by
    intro j hj
    rw [hseldef] at hj
    have := mem_partIdx.1 hj
    omega
  have hsel' : ∀ j ∈ sel, j < (q ++ p).length := fun j hj => by have := hsel j hj; omega
  have hne : sel ≠ [] := by
    intro hc
    have : part * partLen q.length dnum ∈ sel := by
      rw [hseldef, mem_partIdx]; omega
    rw [hc] at this
    exact absurd this (by simp)
  have hnd : sel.Nodup := by rw [hseldef]; unfold partIdx; exact List.nodup_range'
  have hout : ∀ j ∈ out, j < (q ++ p).length := by
    intro j hj
    rw [houtdef, List.mem_filter, List.mem_range] at hj
    omega
  have hperm : (sel ++ out).Perm (List.range (q.length + p.length)) := by
    rw [houtdef]; exact perm_select _ sel hnd (fun i hi => by have := hsel i hi; omega)
  have hplen : (sel ++ out).length = q.length + p.length := by rw [hperm.length_eq, List.length_range]
  have hgm : ∀ (l : List Nat) j, j < l.length → l.getD j 0 ∈ l := fun l j hj => getD_mem hj
  have hctl : (kernelOf kr kc q p dnum).control.getD (part + 1) ([], []) = (sel, out) := by
    unfold kernelOf
    unfold partCount at hpart
    simp only [List.getD_cons_succ]
    rw [List.getD_eq_getElem _ _ (by simpa using hpart), List.getElem_map, List.getElem_range, ← hseldef, ← houtdef]
  have hres : (kernelOf kr kc q p dnum).restore.getD part [] = restoreIndex (sel ++ out) := by
    unfold kernelOf
    unfold partCount at hpart
    simp only
    rw [List.getD_eq_getElem _ _ (by simpa using hpart), List.getElem_map, List.getElem_range, ← hseldef, ← houtdef]
  have htab : (kernelOf kr kc q p dnum).tables = (q ++ p).map (tablesFor kr kc) := rfl
  obtain ⟨conv, D, h1, h2, h3, h4⟩ := convert_spec h _ (tablesOf_basis h) sel out hne hnd hsel' hout last
    (by
      intro j hj t ht
      have := hsel j hj
      rw [getD_append_left this]
      exact hlast j this t ht) _ _ rfl rfl
    (fun j => inttFlat (2 ^ kr) (2 ^ kc) (q.getD (sel.getD j 0) 0)
      (((q ++ p).map (tablesFor kr kc)).getD (sel.getD j 0) Rescale.noTables) (last (sel.getD j 0)))
    (by
      intro j hj
      have hm := hgm sel j hj
      have e1 := getD_append_left (p := p) (hsel _ hm)
      rw [getD_tables (hsel' _ hm), e1])
  rw [hseldef.symm]
  have hrun : extendPart (kernelOf kr kc q p dnum) part last = .ok (fun i =>
      (fun pos => if pos < sel.length then last (sel.getD pos 0)
        else nttFlat (2 ^ kr) (2 ^ kc) ((q ++ p).getD (out.getD (pos - sel.length) 0) 0)
          (((q ++ p).map (tablesFor kr kc)).getD (out.getD (pos - sel.length) 0) Rescale.noTables) (conv (pos - sel.length)))
      ((restoreIndex (sel ++ out)).getD i 0)) := by
    unfold extendPart
    simp only [hctl, hres, htab]
    change Except.bind (basisChangeMat _ _ _ _) _ = _
    have e3 : (kernelOf kr kc q p dnum).r = 2 ^ kr := rfl
    have e4 : (kernelOf kr kc q p dnum).c = 2 ^ kc := rfl
    have e5 : (kernelOf kr kc q p dnum).moduliQ = q := rfl
    have e6 : (kernelOf kr kc q p dnum).moduliP = p := rfl
    simp only [e3, e4, e5, e6]
    rw [h1]
    rfl
  have hpos : ∀ i, i < (q ++ p).length →
      let pos := (restoreIndex (sel ++ out)).getD i 0
      (pos < sel.length ∧ sel.getD pos 0 = i ∧ i ∈ sel) ∨
        (¬ pos < sel.length ∧ pos - sel.length < out.length ∧ out.getD (pos - sel.length) 0 = i ∧ i ∉ sel) := by
    intro i hi
    dsimp only
    obtain ⟨g1, g2⟩ := restoreIndex_get (sel ++ out) (by rw [hplen]; exact hperm) i (by omega)
    generalize (restoreIndex (sel ++ out)).getD i 0 = pos at *
    by_cases hc : pos < sel.length
    · left
      rw [getD_append_left hc] at g2
      refine ⟨hc, g2, ?_⟩
      rw [← g2]; exact hgm sel pos hc
    · right
      rw [List.length_append] at g1
      rw [List.getD_eq_getElem?_getD, List.getElem?_append_right (by omega), ← List.getD_eq_getElem?_getD] at g2
      refine ⟨hc, by omega, g2, ?_⟩
      have hm := hgm out (pos - sel.length) (by omega)
      rw [g2, houtdef, List.mem_filter] at hm
      simpa using hm.2
  refine ⟨_, D, hrun, ?_, h2, ?_, ?_⟩
  · intro i hi t ht
    simp only
    rcases hpos i hi with ⟨c1, c2, c3⟩ | ⟨c1, c2, c3, -⟩
    · rw [if_pos c1, c2, getD_append_left (hsel i c3)]
      exact hlast i (hsel i c3) t ht
    · rw [if_neg c1]
      have := (h4 _ c2).1 t ht
      rw [c3] at this
      rw [c3, getD_tables hi]
      exact this
  · intro i hi
    simp only
    rcases hpos i hi with ⟨c1, c2, c3⟩ | ⟨c1, c2, c3, -⟩
    · rw [if_pos c1, c2]
      exact h3 i c3
    · rw [if_neg c1]
      have := (h4 _ c2).2
      rw [c3] at this
      rw [c3, getD_tables hi]
      exact this
  · intro i hi
    have hi' := hsel' i hi
    simp only
    rcases hpos i hi' with ⟨c1, c2, c3⟩ | ⟨c1, c2, c3, c4⟩
    · rw [if_pos c1, c2]
    · exact absurd hi c4

theorem fold_add (m : Nat) (x : Nat → Nat) (n : Nat) (hx : ∀ j, j < n → x j < m) (hnm : n * m < 2 ^ 64) :
    (List.range n).foldl (fun acc j => add64 acc (x j)) 0 = ∑ j ∈ Finset.range n, x j ∧
    ∑ j ∈ Finset.range n, x j ≤ n * m := by
  induction n with
  | zero => simp
  | succ n ih =>
    have e : (n + 1) * m = n * m + m := by ring
    obtain ⟨h1, h2⟩ := ih (fun j hj => hx j (by omega)) (by omega)
    have := hx n (by omega)
    rw [List.range_succ, List.foldl_append, h1, Finset.sum_range_succ]
    simp only [List.foldl_cons, List.foldl_nil]
    refine ⟨?_, by omega⟩
    unfold add64; omega

theorem prod_dvd_int (l : List Nat) (hco : l.Pairwise Nat.Coprime) (z : Int) (h : ∀ m ∈ l, (m : Int) ∣ z) : (l.prod : Int) ∣ z := by
  induction l with
  | nil => simp
  | cons a l ih =>
    rw [List.pairwise_cons] at hco
    rw [List.prod_cons, Nat.cast_mul]
    refine IsCoprime.mul_dvd ?_ (h a List.mem_cons_self) (ih hco.2 (fun m hm => h m (List.mem_cons_of_mem _ hm)))
    rw [Nat.isCoprime_iff_coprime]
    exact Nat.coprime_list_prod_right_iff.2 (fun m hm => hco.1 m hm)

/-- Approximate modulus reduction of a matrix over `q ++ p`. -/
theorem modDown_spec {q p : List Nat} (h : Basis kr kc q p) (ks : Mat) (hks : Reduced (kr + kc) (q ++ p) ks) :
    ∃ (conv : Mat) (X : Nat → Int), basisChangeMat (2 ^ kr * 2 ^ kc) p q (fun j =>
        inttFlat (2 ^ kr) (2 ^ kc) (p.getD j 0) (((q ++ p).map (tablesFor kr kc)).getD (q.length + j) Rescale.noTables)
          (ks (q.length + j))) = .ok conv ∧
      (∀ t, t < 2 ^ (kr + kc) → 0 ≤ X t ∧ X t < (p.length * p.prod : Nat)) ∧
      (∀ i, q.length ≤ i → i < (q ++ p).length →
        ringOf (kr + kc) ((q ++ p).getD i 0) (ks i) = polyOf (kr + kc) ((q ++ p).getD i 0) X) ∧
      ∀ i, i < q.length →
        (∀ t, t < 2 ^ (kr + kc) → nttFlat (2 ^ kr) (2 ^ kc) (q.getD i 0)
          (((q ++ p).map (tablesFor kr kc)).getD i Rescale.noTables) (conv i) t < q.getD i 0) ∧
        ringOf (kr + kc) (q.getD i 0) (nttFlat (2 ^ kr) (2 ^ kc) (q.getD i 0)
          (((q ++ p).map (tablesFor kr kc)).getD i Rescale.noTables) (conv i)) = polyOf (kr + kc) (q.getD i 0) X := by
  have hl : (q ++ p).length = q.length + p.length := List.length_append
  have hlp := List.length_pos_iff.2 h.neP
  have hgp : ∀ j, (q ++ p).getD (q.length + j) 0 = p.getD j 0 := by
    intro j
    rw [List.getD_eq_getElem?_getD, List.getElem?_append_right (by omega), Nat.add_sub_cancel_left,
      ← List.getD_eq_getElem?_getD]
  have hgr : ∀ j, j < (List.range' q.length p.length).length → (List.range' q.length p.length).getD j 0 = q.length + j := by
    intro j hj
    rw [List.getD_eq_getElem _ _ hj]; simp
  have hgq : ∀ j, j < q.length → (List.range q.length).getD j 0 = j := by
    intro j hj
    rw [List.getD_eq_getElem _ _ (by simpa using hj)]; simp
  have ep : p = (List.range' q.length p.length).map (fun i => (q ++ p).getD i 0) := by
    apply List.ext_getElem (by simp)
    intro j h1 h2
    rw [List.getElem_map, List.getElem_range', Nat.one_mul, hgp, List.getD_eq_getElem _ _ h1]
  have eq : q = (List.range q.length).map (fun i => (q ++ p).getD i 0) := by
    apply List.ext_getElem (by simp)
    intro j h1 h2
    rw [List.getElem_map, List.getElem_range, getD_append_left h1, List.getD_eq_getElem _ _ h1]
  obtain ⟨conv, X, h1, h2, h3, h4⟩ := convert_spec h _ (tablesOf_basis h) (List.range' q.length p.length) (List.range q.length)
    (by intro hc; have := congrArg List.length hc; simp at this; exact h.neP this)
    List.nodup_range' (fun i hi => by rw [List.mem_range'_1] at hi; omega)
    (fun i hi => by rw [List.mem_range] at hi; omega) ks
    (fun i hi t ht => hks i (by rw [List.mem_range'_1] at hi; omega) t ht) p q ep eq
    (fun j => inttFlat (2 ^ kr) (2 ^ kc) (p.getD j 0) (((q ++ p).map (tablesFor kr kc)).getD (q.length + j) Rescale.noTables)
          (ks (q.length + j)))
    (by
      intro j hj
      have hj' : j < p.length := by simpa using hj
      rw [hgr j hj, hgp, getD_tables (by omega), hgp])
  refine ⟨conv, X, h1, ?_, ?_, ?_⟩
  · intro t ht
    have := h2 t ht
    rwa [List.length_range'] at this
  · intro i hi1 hi2
    exact h3 i (by rw [List.mem_range'_1]; omega)
  · intro i hi
    have := h4 i (by simpa using hi)
    rw [hgq i hi, getD_append_left hi] at this
    rw [getD_tables (by omega), getD_append_left hi]
    exact this

end Verif.CkksMul
