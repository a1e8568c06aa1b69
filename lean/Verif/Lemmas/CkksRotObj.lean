import Verif.Model.CkksRotObj
import Verif.Lemmas.CkksObj

/-!
# Lemmas for key switching and rotation on objects
-/

namespace Verif.CkksRotObj
open Verif.Barrett Verif.CkksKeys Verif.CkksMul Verif.RescaleArr Verif.CkksObj

/-- An elementwise operation on arrays of one shape. -/
theorem map2_same {α β γ : Type} (f : α → β → γ) {A : Arr α} {B : Arr β} {e n l : Nat} (ha : A.e = e ∧ A.n = n ∧ A.l = l)
    (hb : B.e = e ∧ B.n = n ∧ B.l = l) :
    ∃ C, map2 f A B = .ok C ∧ (C.e = e ∧ C.n = n ∧ C.l = l) ∧
      ∀ a p i, a < e → p < n → i < l → C.get a p i = f (A.get a p i) (B.get a p i) := by
  obtain ⟨rfl, rfl, rfl⟩ := ha
  obtain ⟨b1, b2, b3⟩ := hb
  refine ⟨_, map2_ok_iff.2 ⟨⟨by rw [b1]; exact compat_self _, by rw [b2]; exact compat_self _, by rw [b3]; exact compat_self _⟩,
    rfl⟩, ⟨by rw [b1]; exact bd_self _, by rw [b2]; exact bd_self _, by rw [b3]; exact bd_self _⟩, ?_⟩
  intro a p i h1 h2 h3
  simp only
  rw [pick_eq h1, pick_eq h2, pick_eq h3, pick_eq (by omega), pick_eq (by omega), pick_eq (by omega)]

/-- An elementwise operation with one constant for each limb. -/
theorem map2_row {α β γ : Type} (f : α → β → γ) {A : Arr α} (d : β) (xs : List β) {e n l : Nat} (ha : A.e = e ∧ A.n = n ∧ A.l = l)
    (hx : xs.length = l) :
    ∃ C, map2 f A (row d xs) = .ok C ∧ (C.e = e ∧ C.n = n ∧ C.l = l) ∧
      ∀ a p i, a < e → p < n → i < l → C.get a p i = f (A.get a p i) (xs.getD i d) := by
  obtain ⟨rfl, rfl, rfl⟩ := ha
  refine ⟨_, map2_ok_iff.2 ⟨⟨compat_one _, compat_one _, by show Compat _ xs.length; rw [hx]; exact compat_self _⟩,
    rfl⟩, ⟨bd_one _, bd_one _, by show bd _ xs.length = _; rw [hx]; exact bd_self _⟩, ?_⟩
  intro a p i h1 h2 h3
  simp only [row]
  rw [pick_eq h1, pick_eq h2, pick_eq h3, pick_eq (by omega : i < xs.length)]

/-- One step of the sum. -/
theorem accumulate_ok {ms all : List Nat} {n : Nat} {acc key part : Arr Nat} (i : Nat) (hms : ms.length = all.length)
    (hacc : acc.e = 1 ∧ acc.n = n ∧ acc.l = all.length) (hkey : i < key.e ∧ key.n = n ∧ key.l = all.length)
    (hpart : part.e = 1 ∧ part.n = n ∧ part.l = all.length) :
    ∃ C, accumulate (some ms) all acc key i part = .ok C ∧ (C.e = 1 ∧ C.n = n ∧ C.l = all.length) ∧
      ∀ p l, p < n → l < all.length → C.get 0 p l =
        add64 (acc.get 0 p l) (modularReduction (mul64 (key.get i p l) (part.get 0 p l)) (Barrett.precompute (ms.getD l 0)) % 2 ^ 32) %
          all.getD l 0 := by
  obtain ⟨k1, k2, k3⟩ := hkey
  have hmin : min i (key.e - 1) = i := by omega
  obtain ⟨P, p1, p2, p3⟩ := map2_same (e := 1) (n := n) (l := all.length) mul64
    (A := ⟨1, key.n, key.l, fun _ p l => key.get i p l⟩) ⟨rfl, k2, k3⟩ hpart
  obtain ⟨Q, q1, q2, q3⟩ := map2_row (fun z m : Nat => modularReduction z (Barrett.precompute m) % 2 ^ 32) 0 ms p2 hms
  obtain ⟨T, t1, t2, t3⟩ := map2_same add64 hacc q2
  obtain ⟨C, c1, c2, c3⟩ := map2_row (fun x m : Nat => x % m) 0 all t2 rfl
  refine ⟨C, ?_, c2, ?_⟩
  · unfold accumulate elem
    rw [if_neg (by omega), hmin]
    simp only [bind, Except.bind, CkksObj.mulBarrett, ne_eq, not_true_eq_false, if_false]
    rw [p1]
    simp only
    rw [q1]
    simp only [pure, Except.pure]
    rw [t1]
    exact c1
  · intro p l hp hl
    rw [c3 0 p l one_pos hp hl, t3 0 p l one_pos hp hl, q3 0 p l one_pos hp hl, p3 0 p l one_pos hp hl]

/-- The sum over the parts. -/
theorem switchLoop_ok {S : KeySwitcher} {q p : List Nat} {bc : BcKernel} {ms : List Nat} {start : Nat} {ksk : EvkObj} {c1 : Arr Nat}
    {part : Nat → Mat} {N : Nat} (hms : ms.length = (q ++ p).length) (hc : c1.n = S.r * S.c) (hl : c1.l = q.length)
    (hp : ∀ i, i < N → switchPart S q p bc start i (fun l t => c1.get 0 t l) = .ok (part i))
    (ha : N ≤ ksk.a.e ∧ ksk.a.n = c1.n ∧ ksk.a.l = (q ++ p).length)
    (hb : N ≤ ksk.b.e ∧ ksk.b.n = c1.n ∧ ksk.b.l = (q ++ p).length) :
    ∀ (n i : Nat) (acc : Arr Nat × Arr Nat), i + n = N →
      (acc.1.e = 1 ∧ acc.1.n = c1.n ∧ acc.1.l = (q ++ p).length) → (acc.2.e = 1 ∧ acc.2.n = c1.n ∧ acc.2.l = (q ++ p).length) →
    ∃ out, switchLoop S q p bc (some ms) start ksk c1 n i acc = .ok out ∧
      (out.1.e = 1 ∧ out.1.n = c1.n ∧ out.1.l = (q ++ p).length) ∧ (out.2.e = 1 ∧ out.2.n = c1.n ∧ out.2.l = (q ++ p).length) ∧
      ∀ t l, t < c1.n → l < (q ++ p).length →
        out.1.get 0 t l = (List.range' i n).foldl (fun acc j => add64 acc
          (modularReduction (mul64 (ksk.b.get j t l) (part j l t)) (Barrett.precompute (ms.getD l 0)) % 2 ^ 32) % (q ++ p).getD l 0)
          (acc.1.get 0 t l) ∧
        out.2.get 0 t l = (List.range' i n).foldl (fun acc j => add64 acc
          (modularReduction (mul64 (ksk.a.get j t l) (part j l t)) (Barrett.precompute (ms.getD l 0)) % 2 ^ 32) % (q ++ p).getD l 0)
          (acc.2.get 0 t l) := by
  intro n
  induction n with
  | zero => intro i acc _ h1 h2; exact ⟨acc, rfl, h1, h2, fun t l _ _ => ⟨rfl, rfl⟩⟩
  | succ n ih =>
    intro i acc hi h1 h2
    have hpart : partArr S q p bc start i c1 = .ok ⟨1, c1.n, (q ++ p).length, fun _ t l => part i l t⟩ := by
      unfold partArr
      simp only
      rw [if_neg (by rw [hl]; omega)]
      simp only [bind, Except.bind, pure, Except.pure]
      rw [hp i (by omega)]
    obtain ⟨B, b1, b2, b3⟩ := accumulate_ok (acc := acc.1) (key := ksk.b)
      (part := ⟨1, c1.n, (q ++ p).length, fun _ t l => part i l t⟩) i hms h1 ⟨by omega, hb.2⟩ ⟨rfl, rfl, rfl⟩
    obtain ⟨A, a1, a2, a3⟩ := accumulate_ok (acc := acc.2) (key := ksk.a)
      (part := ⟨1, c1.n, (q ++ p).length, fun _ t l => part i l t⟩) i hms h2 ⟨by omega, ha.2⟩ ⟨rfl, rfl, rfl⟩
    obtain ⟨out, o1, o2, o3, o4⟩ := ih (i + 1) (B, A) (by omega) b2 a2
    refine ⟨out, ?_, o2, o3, ?_⟩
    · unfold switchLoop
      rw [hpart]
      simp only [bind, Except.bind]
      rw [b1]
      simp only
      rw [a1]
      exact o1
    · intro t l ht hl'
      obtain ⟨x, y⟩ := o4 t l ht hl'
      rw [x, y, List.range'_succ, List.foldl_cons, List.foldl_cons, b3 t l ht hl', a3 t l ht hl']
      exact ⟨rfl, rfl⟩

/-- The elements of an object as functions. -/
def matCt (ct : CtObj) : Ciphertext := ⟨fun i t => ct.data.get 0 t i, fun i t => ct.data.get 1 t i, ct.moduli⟩

/-- An array holds `count` parts of a key of degree `deg` over `len` moduli. -/
structure RepKey (deg len count : Nat) (A : Arr Nat) (parts : List Mat) : Prop where
  e : count ≤ A.e
  n : A.n = deg
  l : A.l = len
  length : count ≤ parts.length
  get : ∀ j t i, j < count → t < deg → i < len → parts.getD j (fun _ _ => 0) i t = A.get j t i

/-- An object holds a pair of elements of degree `deg`. -/
structure Rep (deg : Nat) (R : CtObj) (ct : Ciphertext) : Prop where
  e : R.data.e = 2
  n : R.data.n = deg
  l : R.data.l = ct.moduli.length
  moduli : R.moduli = ct.moduli
  c0 : ∀ t i, t < deg → i < ct.moduli.length → R.data.get 0 t i = ct.c0 i t
  c1 : ∀ t i, t < deg → i < ct.moduli.length → R.data.get 1 t i = ct.c1 i t

theorem mapM_range_ok {α : Type} {f : Nat → Except String α} {n : Nat} {ys : List α} (h : (List.range n).mapM f = .ok ys) (d : α) :
    ∀ i, i < n → f i = .ok (ys.getD i d) := by
  have gen : ∀ (xs : List Nat) (ys : List α), xs.mapM f = .ok ys → ∀ i (hi : i < xs.length), f xs[i] = .ok (ys.getD i d) := by
    intro xs
    induction xs with
    | nil => intro ys _ i hi; simp at hi
    | cons x xs ih =>
      intro ys h i hi
      rw [List.mapM_cons] at h
      obtain ⟨y, h1, h2⟩ := bind_ok_iff.1 h
      obtain ⟨zs, h3, h4⟩ := bind_ok_iff.1 h2
      obtain rfl := Except.ok.inj h4
      cases i with
      | zero => simpa using h1
      | succ i =>
        rw [List.getD_cons_succ]
        simpa using ih zs h3 i (by simpa using hi)
  intro i hi
  have := gen _ ys h i (by simpa using hi)
  simpa using this

/-- On objects whose shapes fit, `key_switch` is the function on elements. -/
theorem keySwitch_rep {S : KeySwitcher} {ct : CtObj} {ksk : EvkObj} {p : List Nat} {bc : BcKernel} {ms : List Nat} {start : Nat}
    {keys : EvalKeys} {out : Ciphertext} (hms : ms.length = (ct.moduli ++ p).length) (he : 2 ≤ ct.data.e) (hn : ct.data.n = S.r * S.c)
    (hl : ct.data.l = ct.moduli.length)
    (ha : RepKey ct.data.n (ct.moduli ++ p).length S.tablesQ.length ksk.a keys.a)
    (hb : RepKey ct.data.n (ct.moduli ++ p).length S.tablesQ.length ksk.b keys.b)
    (h : CkksMul.keySwitch S (matCt ct) keys p bc (some ms) start = .ok out) :
    ∃ R, keySwitch S ct ksk p bc (some ms) start = .ok R ∧ Rep ct.data.n R out := by
  unfold CkksMul.keySwitch at h
  rw [clampKeys_of_le ha.length hb.length] at h
  unfold keySwitchParts at h
  simp only at h
  by_cases hd : S.tablesQ.length = 0
  · rw [if_pos hd] at h
    simp [bind, Except.bind, throw, throwThe, MonadExceptOf.throw] at h
  rw [if_neg hd, if_neg (by have := ha.length; have := hb.length; omega)] at h
  obtain ⟨parts, hparts, h⟩ := bind_ok_iff.1 h
  obtain rfl := Except.ok.inj h
  have hpt := mapM_range_ok hparts (fun _ _ => 0, fun _ _ => 0)
  have hex : ∀ i, ∃ m : Mat, i < S.tablesQ.length → switchPart S ct.moduli p bc start i (fun l t => ct.data.get 1 t l) = .ok m ∧
      parts.getD i (fun _ _ => 0, fun _ _ => 0) =
        (fun l t => modularReduction (mul64 (keys.b.getD i (fun _ _ => 0) l t) (m l t)) (Barrett.precompute (ms.getD l 0)) % 2 ^ 32,
         fun l t => modularReduction (mul64 (keys.a.getD i (fun _ _ => 0) l t) (m l t)) (Barrett.precompute (ms.getD l 0)) % 2 ^ 32) := by
    intro i
    by_cases hi : i < S.tablesQ.length
    · obtain ⟨m, h1, h2⟩ := bind_ok_iff.1 (hpt i hi)
      refine ⟨m, fun _ => ⟨h1, ?_⟩⟩
      simp only [CkksMul.mulBarrett, ne_eq, not_true_eq_false, if_false, bind, Except.bind, pure, Except.pure, Except.ok.injEq] at h2
      exact h2.symm
    · exact ⟨fun _ _ => 0, fun h => absurd h hi⟩
  choose part hpart using hex
  have hmin : min 1 (ct.data.e - 1) = 1 := by omega
  obtain ⟨ks, k1, k2, k3, k4⟩ := switchLoop_ok (S := S) (q := ct.moduli) (p := p) (bc := bc) (ms := ms) (start := start) (ksk := ksk)
    (c1 := ⟨1, ct.data.n, ct.data.l, fun _ t i => ct.data.get 1 t i⟩) (part := part) (N := S.tablesQ.length) hms hn hl
    (fun i hi => (hpart i hi).1) ⟨ha.e, ha.n, ha.l⟩ ⟨hb.e, hb.n, hb.l⟩ S.tablesQ.length 0
    (⟨1, ct.data.n, (ct.moduli ++ p).length, fun _ _ _ => 0⟩, ⟨1, ct.data.n, (ct.moduli ++ p).length, fun _ _ _ => 0⟩) (by omega)
    ⟨rfl, rfl, rfl⟩ ⟨rfl, rfl, rfl⟩
  obtain ⟨x, x1, x2, x3⟩ := map2_row mul64 (A := ⟨1, ct.data.n, ct.data.l, fun _ t i => ct.data.get 0 t i⟩) 0
    (ct.moduli.map (prodMod p)) (e := 1) (n := ct.data.n) (l := ct.moduli.length) ⟨rfl, rfl, hl⟩ (by simp)
  obtain ⟨y, y1, y2, y3⟩ := map2_row (fun x m : Nat => x % m) 0 ct.moduli x2 rfl
  have hall : (ct.moduli ++ p).length = ct.moduli.length + p.length := List.length_append
  obtain ⟨z, z1, z2, z3⟩ := map2_same add64 (A := padLimbs y p.length) (B := ks.1) (e := 1) (n := ct.data.n)
    (l := (ct.moduli ++ p).length) ⟨y2.1, y2.2.1, by simp only [padLimbs]; omega⟩ k2
  obtain ⟨w, w1, w2, w3⟩ := map2_row (fun x m : Nat => x % m) 0 (ct.moduli ++ p) z2 rfl
  have hfold : ∀ (sel : Mat × Mat → Mat) (K : Arr Nat) (t l : Nat),
      (∀ j, j < S.tablesQ.length → sel (parts.getD j (fun _ _ => 0, fun _ _ => 0)) l t =
        modularReduction (mul64 (K.get j t l) (part j l t)) (Barrett.precompute (ms.getD l 0)) % 2 ^ 32) →
      (List.range' 0 S.tablesQ.length).foldl (fun acc j => add64 acc
          (modularReduction (mul64 (K.get j t l) (part j l t)) (Barrett.precompute (ms.getD l 0)) % 2 ^ 32) % (ct.moduli ++ p).getD l 0) 0 =
      (List.range S.tablesQ.length).foldl (fun acc j => add64 acc (sel (parts.getD j (fun _ _ => 0, fun _ _ => 0)) l t) %
        (ct.moduli ++ p).getD l 0) 0 := by
    intro sel K t l hs
    rw [← List.range_eq_range']
    apply List.foldl_ext
    intro acc j hj
    rw [hs j (List.mem_range.1 hj)]
  have hks : ∀ t l, t < ct.data.n → l < (ct.moduli ++ p).length →
      ks.1.get 0 t l = (List.range S.tablesQ.length).foldl (fun acc j => add64 acc
        ((parts.getD j (fun _ _ => 0, fun _ _ => 0)).1 l t) % (ct.moduli ++ p).getD l 0) 0 ∧
      ks.2.get 0 t l = (List.range S.tablesQ.length).foldl (fun acc j => add64 acc
        ((parts.getD j (fun _ _ => 0, fun _ _ => 0)).2 l t) % (ct.moduli ++ p).getD l 0) 0 := by
    intro t l ht hl'
    obtain ⟨u1, u2⟩ := k4 t l ht hl'
    rw [u1, u2]
    refine ⟨hfold Prod.fst ksk.b t l ?_, hfold Prod.snd ksk.a t l ?_⟩
    · intro j hj
      rw [(hpart j hj).2]
      show modularReduction (mul64 (keys.b.getD j (fun _ _ => 0) l t) (part j l t)) _ % _ = _
      rw [hb.get j t l hj ht hl']
    · intro j hj
      rw [(hpart j hj).2]
      show modularReduction (mul64 (keys.a.getD j (fun _ _ => 0) l t) (part j l t)) _ % _ = _
      rw [ha.get j t l hj ht hl']
  refine ⟨⟨⟨2, w.n, w.l, fun a t i => (if a = 0 then w.get 0 t i else ks.2.get 0 t i) % 2 ^ 32⟩, ct.moduli ++ p⟩, ?_, ?_⟩
  · unfold keySwitch elem
    rw [if_neg (by omega), if_neg (by omega), hmin]
    simp only [bind, Except.bind, pure, Except.pure, Nat.zero_min]
    rw [if_neg hd]
    rw [k1]
    simp only
    rw [x1]
    simp only
    rw [y1]
    simp only
    rw [z1]
    simp only
    rw [w1]
    simp only [stack2]
    rw [if_neg (by rw [w2.2.1, w2.2.2, k3.2.1, k3.2.2]; simp)]
  · refine ⟨rfl, w2.2.1, w2.2.2, rfl, ?_, ?_⟩
    · intro t i ht hi
      have hi' : i < (ct.moduli ++ p).length := hi
      simp only [if_true]
      rw [w3 0 t i one_pos ht hi', z3 0 t i one_pos ht hi', (hks t i ht hi').1]
      have hy : y.l = ct.moduli.length := y2.2.2
      have hsc : (padLimbs y p.length).get 0 t i = if i < ct.moduli.length then
          mul64 (ct.data.get 0 t i) (p.foldl (fun acc m => mul64 acc (m % ct.moduli.getD i 0) % ct.moduli.getD i 0) 1) %
            ct.moduli.getD i 0 % 2 ^ 32 else 0 := by
        simp only [padLimbs, hy]
        by_cases hq : i < ct.moduli.length
        · rw [if_pos hq, if_pos hq, y3 0 t i one_pos ht hq, x3 0 t i one_pos ht hq,
            List.getD_eq_getElem _ _ (by simpa using hq), List.getElem_map, ← List.getD_eq_getElem _ 0 hq]
          rfl
        · rw [if_neg hq, if_neg hq]
      rw [hsc]
      rfl
    · intro t i ht hi
      have hi' : i < (ct.moduli ++ p).length := hi
      simp only [one_ne_zero, if_false]
      rw [(hks t i ht hi').2]
      rfl

end Verif.CkksRotObj
