import Verif.Lemmas.PyTree

/-!
# C80: CKKS objects survive the trip through JAX transformations
-/

namespace Verif.Props
open Verif.PyTree
variable {A : Type}

/-- Specification: the attributes of a class that hold array data or further objects. -/
def dynamicAttrs : Cls → List String
  | .plaintext | .ciphertext => ["data", "moduli"]
  | .hMuxRotKey => ["key0", "key1"]
  | .muxRotationKey => ["keys"]
  | .addSimple | .mulPtSimple => []
  | .addModularBarrett | .mulPtBarrett => ["barrett_constants"]
  | .addModularSubtract => ["moduli"]
  | .barrettConstants => ["m", "moduli", "w", "s_w"]
  | .bconvConstants => ["q_hat_inv_mod_q", "q_hat_mod_p_bat", "origin_barrett", "target_barrett"]
  | .bconvBarrett => ["precomputed_constants"]
  | .nttConstants => ["ntt_bat_tf_step1", "ntt_tf_step2", "ntt_bat_tf_step3", "intt_bat_tf_step1",
      "intt_tf_step2", "intt_bat_tf_step3", "barrett_constants", "moduli"]
  | .nttBarrett => ["constants"]
  | .keySwitcher => ["ntt_kernels_q", "ntt_kernels_out"]
  | .conjugation => ["key_switcher"]
  | .mulEvaluationKeys => ["a", "b", "moduli"]
  | .mul => ["bconv", "ks_select_tower_index_overall", "ks_non_select_tower_index_overall", "ks_restore_indices",
      "full_ntt_constants", "ks_ntt_kernels", "PInvModq", "q_correction", "barrett_constants",
      "full_barrett_constants", "ntt_current", "ntt_extend", "drop_last_extend_moduli_jax", "q_correction_uint32"]
  | .rescale => ["gammas_stacked", "betas_stacked", "thresholds", "ntt_last_limb_kernels",
      "ntt_remaining_limbs_kernels"]
  | .blindRotation => ["key_switcher", "bc_kernel", "mul_kernel", "rescale_kernel", "ntt_q", "ntt_p"]
  | .unregistered _ => []

/-- Specification: the attributes that configure an object (integers, lists of moduli). -/
def staticAttrs : Cls → List String
  | .nttConstants => ["r", "c"]
  | .rescale => ["moduli", "num_rescales", "r", "c"]
  | .mul => ["original_moduli", "extend_moduli", "dnum", "r", "c", "composite_degree", "ks_alpha",
      "ks_num_parts_ql", "drop_last_moduli", "drop_last_extend_moduli", "degree", "is_initialized",
      "_injected_bconv", "_injected_ntt_current", "_injected_ntt_extend", "_injected_ntt_factory",
      "_injected_full_ntt"]
  | _ => []

/-- The invariant of a `Mul` whose `precompute_constants` has been called: the derived attributes are those
computed from the configured ones. -/
def MulReady (o : Attrs A) : Prop :=
  ∃ (om em : List (Py A)) (dnum alpha parts : Py A) (r c : Int) (cd : Nat),
    o "is_initialized" = some (.bool true) ∧ 0 < cd ∧
    o "original_moduli" = some (.list om) ∧ o "extend_moduli" = some (.list em) ∧ o "dnum" = some dnum ∧
    o "r" = some (.int r) ∧ o "c" = some (.int c) ∧ o "composite_degree" = some (.int cd) ∧
    o "ks_alpha" = some alpha ∧ o "ks_num_parts_ql" = some parts ∧
    o "drop_last_moduli" = some (.list (om.take (om.length - cd))) ∧
    o "drop_last_extend_moduli" = some (.list (om.take (om.length - cd) ++ em)) ∧
    o "degree" = some (.int (r * c))

/-- The five optional constructor arguments of `Mul` were left at their default. -/
def NoInjection (o : Attrs A) : Prop :=
  ∀ k ∈ ["_injected_bconv", "_injected_ntt_current", "_injected_ntt_extend", "_injected_ntt_factory",
    "_injected_full_ntt"], o k = some .none

/-- Objects as the constructors and `precompute_constants` leave them; `P` is required of the dynamic
attributes. -/
def GoodObj (rebuild : Py A → Except String (Py A)) (P : Py A → Prop) (c : Cls) (o : Attrs A) : Prop :=
  match c with
  | .unregistered _ => True
  | .mul => (o = newMulAttrs .none .none .none .none .none ∧ P .none) ∨
      ((∀ k, (o k).isSome ↔ k ∈ dynamicAttrs .mul ++ staticAttrs .mul) ∧
        (∀ k ∈ dynamicAttrs .mul, ∀ v, o k = some v → P v) ∧ MulReady o ∧ NoInjection o)
  | c => (∀ k, (o k).isSome ↔ k ∈ dynamicAttrs c ++ staticAttrs c) ∧
      (∀ k ∈ dynamicAttrs c, ∀ v, o k = some v → P v) ∧
      (c = .addModularSubtract → ∃ a, o "moduli" = some (.arr a) ∧ rebuild (.arr a) = .ok (.arr a))

/-- Well-formed values of nesting depth below `n`. -/
def Good (rebuild : Py A → Except String (Py A)) : Nat → Py A → Prop
  | 0, _ => False
  | n + 1, v =>
    match v with
    | .list xs => ∀ x ∈ xs, Good rebuild n x
    | .tuple xs => ∀ x ∈ xs, Good rebuild n x
    | .obj c o => GoodObj rebuild (Good rebuild n) c o
    | _ => True

/-- Specification of a transformation: the same value with `f` applied to every leaf reachable through lists,
tuples and dynamic attributes; `None`, the classes and the static attributes are unchanged. -/
def mapLeaves (f : Py A → Py A) : Nat → Py A → Py A
  | 0, v => v
  | n + 1, v =>
    match v with
    | .none => .none
    | .list xs => .list (xs.map (mapLeaves f n))
    | .tuple xs => .tuple (xs.map (mapLeaves f n))
    | .obj (.unregistered s) o => f (.obj (.unregistered s) o)
    | .obj c o => .obj c (fun k => if k ∈ dynamicAttrs c then (o k).map (mapLeaves f n) else o k)
    | v => f v

theorem mapLeaves_id : ∀ (n : Nat) (v : Py A), mapLeaves id n v = v
  | 0, _ => rfl
  | n + 1, v => by
    have ih : mapLeaves (A := A) id n = id := funext (mapLeaves_id n)
    cases v with
    | obj c o => cases c <;> simp [mapLeaves, ih]
    | _ => simp [mapLeaves, ih]

/-- The attributes named in a list, given that exactly the listed ones exist. -/
private theorem present {o : Attrs A} {P : Py A → Prop} {ks ss : List String}
    (h1 : ∀ k, (o k).isSome ↔ k ∈ ks ++ ss) (h2 : ∀ k ∈ ks, ∀ v, o k = some v → P v) :
    ∀ k ∈ ks, ∃ v, o k = some v ∧ P v := by
  intro k hk
  obtain ⟨v, hv⟩ := Option.isSome_iff_exists.1 ((h1 k).2 (List.mem_append_left _ hk))
  exact ⟨v, hv, h2 k hk v hv⟩

private theorem absent {o : Attrs A} {ks : List String} (h1 : ∀ k, (o k).isSome ↔ k ∈ ks ++ []) (g : Py A → Py A) :
    (fun k => if k ∈ ks then (o k).map g else (none : Option (Py A))) =
      fun k => if k ∈ ks then (o k).map g else o k := by
  funext k
  split_ifs with h
  · rfl
  · have := (h1 k).not.2 (by simpa using h)
    rw [Option.not_isSome_iff_eq_none] at this
    exact this.symm

private theorem static_absent {o : Attrs A} {ks ss : List String} (h1 : ∀ k, (o k).isSome ↔ k ∈ ks ++ ss)
    (hd : ∀ k ∈ ss, k ∉ ks) (g : Py A → Py A) (k : String) :
    (if k ∈ ss then (o k).map id else if k ∈ ks then (o k).map g else none) =
      if k ∈ ks then (o k).map g else o k := by
  by_cases hs : k ∈ ss
  · rw [if_pos hs, if_neg (hd k hs)]; simp
  · rw [if_neg hs]
    by_cases hk : k ∈ ks
    · rw [if_pos hk, if_pos hk]
    · rw [if_neg hk, if_neg hk]
      have := (h1 k).not.2 (by simp only [List.mem_append]; tauto)
      rw [Option.not_isSome_iff_eq_none] at this
      exact this.symm

private theorem setAttr_comm (o : Attrs A) {k j : String} (h : k ≠ j) (v w : Py A) :
    setAttr (setAttr o k v) j w = setAttr (setAttr o j w) k v :=
  Function.update_comm h _ _ _

/-- One object: `tree_unflatten` undoes `tree_flatten`, children replaced by their images. -/
theorem object_ok (rebuild : Py A → Except String (Py A)) (P : Py A → Prop) (c : Cls)
    (hc : ∀ s, c ≠ .unregistered s) (o : Attrs A) (h : GoodObj rebuild P c o) :
    ∃ children aux, treeFlatten c o = some (.ok (children, aux)) ∧ (∀ x ∈ children, P x) ∧
      ∀ g : Py A → Py A, g .none = .none →
        (∀ a, P (.arr a) → rebuild (.arr a) = .ok (.arr a) → rebuild (g (.arr a)) = .ok (g (.arr a))) →
        treeUnflatten rebuild c aux (children.map g) =
          .ok (.obj c (fun k => if k ∈ dynamicAttrs c then (o k).map g else o k)) := by
  -- classes whose children are all their attributes
  have plain : ∀ ks : List String, ks.Nodup → (∀ k, (o k).isSome ↔ k ∈ ks ++ []) →
      (∀ k ∈ ks, ∀ v, o k = some v → P v) →
      ∃ vs, getAttrs o ks = .ok vs ∧ vs.length = ks.length ∧ (∀ v ∈ vs, P v) ∧
        ∀ (g : Py A → Py A) (base : Attrs A), (∀ k, k ∉ ks → base k = none) →
          setAttrs base ks (vs.map g) = .ok (fun k => if k ∈ ks then (o k).map g else o k) := by
    intro ks hn h1 h2
    obtain ⟨vs, e1, e2, e3, e4⟩ := getAttrs_spec P o ks (present h1 h2)
    refine ⟨vs, e1, e2, e3, fun g base hb => ?_⟩
    rw [e4 g base hn, ← absent h1 g]
    congr 1
    funext k
    by_cases hk : k ∈ ks
    · simp [hk]
    · simp [hk, hb k hk]
  cases c with
  | unregistered s => exact absurd rfl (hc s)
  | plaintext =>
    obtain ⟨h1, h2, -⟩ := h
    obtain ⟨vs, e1, e2, e3, e4⟩ := plain ["data", "moduli"] (by decide) h1 h2
    obtain ⟨a0, a1, rfl⟩ : ∃ a0 a1, vs = [a0, a1] := by
      match vs, e2 with
      | [a0, a1], _ => exact ⟨a0, a1, rfl⟩
    refine ⟨[a0, a1], .none, ?_, e3, fun g _ _ => ?_⟩
    · exact congrArg (fun r : Except String (List (Py A)) => some (r >>= fun x => pure (x, (Py.none : Py A)))) e1
    · exact congrArg (fun F => Except.ok (Py.obj .plaintext F)) (Except.ok.inj (e4 g (fun _ => none) (fun _ _ => rfl)))
  | ciphertext =>
    obtain ⟨h1, h2, -⟩ := h
    obtain ⟨vs, e1, e2, e3, e4⟩ := plain ["data", "moduli"] (by decide) h1 h2
    obtain ⟨a0, a1, rfl⟩ : ∃ a0 a1, vs = [a0, a1] := by
      match vs, e2 with
      | [a0, a1], _ => exact ⟨a0, a1, rfl⟩
    refine ⟨[a0, a1], .none, ?_, e3, fun g _ _ => ?_⟩
    · exact congrArg (fun r : Except String (List (Py A)) => some (r >>= fun x => pure (x, (Py.none : Py A)))) e1
    · exact congrArg (fun F => Except.ok (Py.obj .ciphertext F)) (Except.ok.inj (e4 g (fun _ => none) (fun _ _ => rfl)))
  | hMuxRotKey =>
    obtain ⟨h1, h2, -⟩ := h
    obtain ⟨vs, e1, e2, e3, e4⟩ := plain ["key0", "key1"] (by decide) h1 h2
    obtain ⟨a0, a1, rfl⟩ : ∃ a0 a1, vs = [a0, a1] := by
      match vs, e2 with
      | [a0, a1], _ => exact ⟨a0, a1, rfl⟩
    refine ⟨[a0, a1], .none, ?_, e3, fun g _ _ => ?_⟩
    · exact congrArg (fun r : Except String (List (Py A)) => some (r >>= fun x => pure (x, (Py.none : Py A)))) e1
    · exact congrArg (fun F => Except.ok (Py.obj .hMuxRotKey F)) (Except.ok.inj (e4 g (fun _ => none) (fun _ _ => rfl)))
  | muxRotationKey =>
    obtain ⟨h1, h2, -⟩ := h
    obtain ⟨vs, e1, e2, e3, e4⟩ := plain ["keys"] (by decide) h1 h2
    obtain ⟨a0, rfl⟩ : ∃ a0, vs = [a0] := by
      match vs, e2 with
      | [a0], _ => exact ⟨a0, rfl⟩
    refine ⟨[a0], .none, ?_, e3, fun g _ _ => ?_⟩
    · exact congrArg (fun r : Except String (List (Py A)) => some (r >>= fun x => pure (x, (Py.none : Py A)))) e1
    · exact congrArg (fun F => Except.ok (Py.obj .muxRotationKey F)) (Except.ok.inj (e4 g (fun _ => none) (fun _ _ => rfl)))
  | addSimple =>
    obtain ⟨h1, -, -⟩ := h
    refine ⟨[], .none, rfl, by simp, fun g _ _ => ?_⟩
    have : o = fun _ => none := by
      funext k
      have := (h1 k).not.2 (by simp [dynamicAttrs, staticAttrs])
      rwa [Option.not_isSome_iff_eq_none] at this
    subst this
    rfl
  | mulPtSimple =>
    obtain ⟨h1, -, -⟩ := h
    refine ⟨[], .none, rfl, by simp, fun g _ _ => ?_⟩
    have : o = fun _ => none := by
      funext k
      have := (h1 k).not.2 (by simp [dynamicAttrs, staticAttrs])
      rwa [Option.not_isSome_iff_eq_none] at this
    subst this
    rfl
  | addModularBarrett =>
    obtain ⟨h1, h2, -⟩ := h
    obtain ⟨vs, e1, e2, e3, e4⟩ := plain ["barrett_constants"] (by decide) h1 h2
    obtain ⟨a0, rfl⟩ : ∃ a0, vs = [a0] := by
      match vs, e2 with
      | [a0], _ => exact ⟨a0, rfl⟩
    refine ⟨[a0], .none, ?_, e3, fun g _ _ => ?_⟩
    · exact congrArg (fun r : Except String (List (Py A)) => some (r >>= fun x => pure (x, (Py.none : Py A)))) e1
    · exact congrArg (fun F => Except.ok (Py.obj .addModularBarrett F)) (Except.ok.inj (e4 g (fun _ => none) (fun _ _ => rfl)))
  | mulPtBarrett =>
    obtain ⟨h1, h2, -⟩ := h
    obtain ⟨vs, e1, e2, e3, e4⟩ := plain ["barrett_constants"] (by decide) h1 h2
    obtain ⟨a0, rfl⟩ : ∃ a0, vs = [a0] := by
      match vs, e2 with
      | [a0], _ => exact ⟨a0, rfl⟩
    refine ⟨[a0], .none, ?_, e3, fun g _ _ => ?_⟩
    · exact congrArg (fun r : Except String (List (Py A)) => some (r >>= fun x => pure (x, (Py.none : Py A)))) e1
    · exact congrArg (fun F => Except.ok (Py.obj .mulPtBarrett F)) (Except.ok.inj (e4 g (fun _ => none) (fun _ _ => rfl)))
  | barrettConstants =>
    obtain ⟨h1, h2, -⟩ := h
    obtain ⟨vs, e1, e2, e3, e4⟩ := plain ["m", "moduli", "w", "s_w"] (by decide) h1 h2
    obtain ⟨a0, a1, a2, a3, rfl⟩ : ∃ a0 a1 a2 a3, vs = [a0, a1, a2, a3] := by
      match vs, e2 with
      | [a0, a1, a2, a3], _ => exact ⟨a0, a1, a2, a3, rfl⟩
    refine ⟨[a0, a1, a2, a3], .none, ?_, e3, fun g _ _ => ?_⟩
    · exact congrArg (fun r : Except String (List (Py A)) => some (r >>= fun x => pure (x, (Py.none : Py A)))) e1
    · exact congrArg (fun F => Except.ok (Py.obj .barrettConstants F)) (Except.ok.inj (e4 g (fun _ => none) (fun _ _ => rfl)))
  | bconvConstants =>
    obtain ⟨h1, h2, -⟩ := h
    obtain ⟨vs, e1, e2, e3, e4⟩ := plain ["q_hat_inv_mod_q", "q_hat_mod_p_bat", "origin_barrett", "target_barrett"] (by decide) h1 h2
    obtain ⟨a0, a1, a2, a3, rfl⟩ : ∃ a0 a1 a2 a3, vs = [a0, a1, a2, a3] := by
      match vs, e2 with
      | [a0, a1, a2, a3], _ => exact ⟨a0, a1, a2, a3, rfl⟩
    refine ⟨[a0, a1, a2, a3], .none, ?_, e3, fun g _ _ => ?_⟩
    · exact congrArg (fun r : Except String (List (Py A)) => some (r >>= fun x => pure (x, (Py.none : Py A)))) e1
    · exact congrArg (fun F => Except.ok (Py.obj .bconvConstants F)) (Except.ok.inj (e4 g (fun _ => none) (fun _ _ => rfl)))
  | mulEvaluationKeys =>
    obtain ⟨h1, h2, -⟩ := h
    obtain ⟨vs, e1, e2, e3, e4⟩ := plain ["a", "b", "moduli"] (by decide) h1 h2
    obtain ⟨a0, a1, a2, rfl⟩ : ∃ a0 a1 a2, vs = [a0, a1, a2] := by
      match vs, e2 with
      | [a0, a1, a2], _ => exact ⟨a0, a1, a2, rfl⟩
    refine ⟨[a0, a1, a2], .tuple [], ?_, e3, fun g _ _ => ?_⟩
    · exact congrArg (fun r : Except String (List (Py A)) => some (r >>= fun x => pure (x, (Py.tuple [] : Py A)))) e1
    · exact congrArg (fun F => Except.ok (Py.obj .mulEvaluationKeys F)) (Except.ok.inj (e4 g (fun _ => none) (fun _ _ => rfl)))
  | bconvBarrett =>
    obtain ⟨h1, h2, -⟩ := h
    obtain ⟨vs, e1, e2, e3, e4⟩ := plain ["precomputed_constants"] (by decide) h1 h2
    obtain ⟨a0, rfl⟩ : ∃ a0, vs = [a0] := by
      match vs, e2 with
      | [a0], _ => exact ⟨a0, rfl⟩
    refine ⟨[a0], .none, ?_, e3, fun g _ _ => ?_⟩
    · exact congrArg (fun r : Except String (List (Py A)) => some (r >>= fun x => pure (x, (Py.none : Py A)))) e1
    · exact congrArg (fun F => Except.ok (Py.obj .bconvBarrett F)) (Except.ok.inj (e4 g (setAttr (fun _ => none) "precomputed_constants" (.list [])) (by
        intro k hk
        simp only [List.mem_cons, List.not_mem_nil, or_false] at hk
        simp [setAttr, Function.update, hk])))
  | nttBarrett =>
    obtain ⟨h1, h2, -⟩ := h
    obtain ⟨vs, e1, e2, e3, e4⟩ := plain ["constants"] (by decide) h1 h2
    obtain ⟨a0, rfl⟩ : ∃ a0, vs = [a0] := by
      match vs, e2 with
      | [a0], _ => exact ⟨a0, rfl⟩
    refine ⟨[a0], .none, ?_, e3, fun g _ _ => ?_⟩
    · exact congrArg (fun r : Except String (List (Py A)) => some (r >>= fun x => pure (x, (Py.none : Py A)))) e1
    · exact congrArg (fun F => Except.ok (Py.obj .nttBarrett F)) (Except.ok.inj (e4 g (setAttr (fun _ => none) "constants" .none) (by
        intro k hk
        simp only [List.mem_cons, List.not_mem_nil, or_false] at hk
        simp [setAttr, Function.update, hk])))
  | keySwitcher =>
    obtain ⟨h1, h2, -⟩ := h
    obtain ⟨vs, e1, e2, e3, e4⟩ := plain ["ntt_kernels_q", "ntt_kernels_out"] (by decide) h1 h2
    obtain ⟨a0, a1, rfl⟩ : ∃ a0 a1, vs = [a0, a1] := by
      match vs, e2 with
      | [a0, a1], _ => exact ⟨a0, a1, rfl⟩
    refine ⟨[a0, a1], .none, ?_, e3, fun g _ _ => ?_⟩
    · exact congrArg (fun r : Except String (List (Py A)) => some (r >>= fun x => pure (x, (Py.none : Py A)))) e1
    · exact congrArg (fun F => Except.ok (Py.obj .keySwitcher F)) (Except.ok.inj (e4 g (setAttr (setAttr (fun _ => none) "ntt_kernels_q" (.list [])) "ntt_kernels_out" (.list [])) (by
        intro k hk
        simp only [List.mem_cons, List.not_mem_nil, or_false, not_or] at hk
        simp [setAttr, Function.update, hk])))
  | conjugation =>
    obtain ⟨h1, h2, -⟩ := h
    obtain ⟨vs, e1, e2, e3, e4⟩ := plain ["key_switcher"] (by decide) h1 h2
    obtain ⟨a0, rfl⟩ : ∃ a0, vs = [a0] := by
      match vs, e2 with
      | [a0], _ => exact ⟨a0, rfl⟩
    refine ⟨[a0], .none, ?_, e3, fun g _ _ => ?_⟩
    · exact congrArg (fun r : Except String (List (Py A)) => some (r >>= fun x => pure (x, (Py.none : Py A)))) e1
    · exact congrArg (fun F => Except.ok (Py.obj .conjugation F)) (Except.ok.inj (e4 g (setAttr (fun _ => none) "key_switcher" newKeySwitcher) (by
        intro k hk
        simp only [List.mem_cons, List.not_mem_nil, or_false] at hk
        simp [setAttr, Function.update, hk])))
  | blindRotation =>
    obtain ⟨h1, h2, -⟩ := h
    obtain ⟨vs, e1, e2, e3, e4⟩ := plain ["key_switcher", "bc_kernel", "mul_kernel", "rescale_kernel", "ntt_q", "ntt_p"] (by decide) h1 h2
    obtain ⟨a0, a1, a2, a3, a4, a5, rfl⟩ : ∃ a0 a1 a2 a3 a4 a5, vs = [a0, a1, a2, a3, a4, a5] := by
      match vs, e2 with
      | [a0, a1, a2, a3, a4, a5], _ => exact ⟨a0, a1, a2, a3, a4, a5, rfl⟩
    refine ⟨[a0, a1, a2, a3, a4, a5], .none, ?_, e3, fun g _ _ => ?_⟩
    · exact congrArg (fun r : Except String (List (Py A)) => some (r >>= fun x => pure (x, (Py.none : Py A)))) e1
    · exact congrArg (fun F => Except.ok (Py.obj .blindRotation F)) (Except.ok.inj (e4 g newBlindAttrs (by
        intro k hk
        simp only [List.mem_cons, List.not_mem_nil, or_false, not_or] at hk
        simp [setAttr, Function.update, newBlindAttrs, hk])))
  | addModularSubtract =>
    obtain ⟨h1, h2, h3⟩ := h
    obtain ⟨a, ha, hr⟩ := h3 rfl
    have hP : P (.arr a) := h2 "moduli" (by decide) _ ha
    refine ⟨[.arr a], .none, ?_, by simpa using hP, fun g _ hg => ?_⟩
    · exact congrArg (fun r : Except String (List (Py A)) => some (r >>= fun x => pure (x, (Py.none : Py A))))
        (getAttrs_cons o "moduli" [] (.arr a) [] ha rfl)
    · simp only [treeUnflatten, List.map_cons, List.map_nil, child, List.getElem?_cons_zero, bind, Except.bind,
        hg a hP hr, pure, Except.pure]
      congr 2
      funext k
      by_cases hk : k = "moduli"
      · subst hk
        simp [setAttr, dynamicAttrs, ha]
      · have := (h1 k).not.2 (by simpa [dynamicAttrs, staticAttrs] using hk)
        rw [Option.not_isSome_iff_eq_none] at this
        simp [setAttr, dynamicAttrs, hk, this]
  | nttConstants =>
    obtain ⟨h1, h2, -⟩ := h
    obtain ⟨vs, e1, e2, e3, e4⟩ := getAttrs_spec P o ["ntt_bat_tf_step1", "ntt_tf_step2", "ntt_bat_tf_step3", "intt_bat_tf_step1", "intt_tf_step2", "intt_bat_tf_step3", "barrett_constants", "moduli"] (present h1 h2)
    obtain ⟨ss, f1, f2, -, f4⟩ := getAttrs_spec (fun _ => True) o ["r", "c"] (fun k hk => by
      obtain ⟨v, hv⟩ := Option.isSome_iff_exists.1 ((h1 k).2 (List.mem_append_right _ hk))
      exact ⟨v, hv, trivial⟩)
    obtain ⟨a0, a1, a2, a3, a4, a5, a6, a7, rfl⟩ : ∃ a0 a1 a2 a3 a4 a5 a6 a7, vs = [a0, a1, a2, a3, a4, a5, a6, a7] := by
      match vs, e2 with
      | [a0, a1, a2, a3, a4, a5, a6, a7], _ => exact ⟨a0, a1, a2, a3, a4, a5, a6, a7, rfl⟩
    obtain ⟨b0, b1, rfl⟩ : ∃ b0 b1, ss = [b0, b1] := by
      match ss, f2 with
      | [b0, b1], _ => exact ⟨b0, b1, rfl⟩
    refine ⟨[a0, a1, a2, a3, a4, a5, a6, a7], .tuple [b0, b1], ?_, e3, fun g _ _ => ?_⟩
    · simp only [treeFlatten, nttChildren, e1, f1, bind, Except.bind, pure, Except.pure]
    · have e5 := fun base : Attrs A => Except.ok.inj (e4 g base (by decide))
      have f5 := fun base : Attrs A => Except.ok.inj (f4 id base (by decide))
      have e6 := (congrArg (fun F => setAttr (setAttr F "r" b0) "c" b1) (e5 (fun _ => none))).trans (f5 _)
      refine Eq.trans ?_ (congrArg (fun F : Attrs A => Except.ok (Py.obj .nttConstants F)) (e6.trans ?_))
      · refine congrArg (fun F : Attrs A => Except.ok (Py.obj .nttConstants F)) ?_
        refine (setAttr_comm _ (show "c" ≠ "moduli" by decide) _ _).trans ?_
        exact congrArg (fun F : Attrs A => setAttr F "c" b1) (setAttr_comm _ (show "r" ≠ "moduli" by decide) _ _)
      · funext k
        exact static_absent h1 (by decide) g k
  | rescale =>
    obtain ⟨h1, h2, -⟩ := h
    obtain ⟨vs, e1, e2, e3, e4⟩ := getAttrs_spec P o ["gammas_stacked", "betas_stacked", "thresholds", "ntt_last_limb_kernels", "ntt_remaining_limbs_kernels"] (present h1 h2)
    obtain ⟨ss, f1, f2, -, f4⟩ := getAttrs_spec (fun _ => True) o ["moduli", "num_rescales", "r", "c"] (fun k hk => by
      obtain ⟨v, hv⟩ := Option.isSome_iff_exists.1 ((h1 k).2 (List.mem_append_right _ hk))
      exact ⟨v, hv, trivial⟩)
    obtain ⟨a0, a1, a2, a3, a4, rfl⟩ : ∃ a0 a1 a2 a3 a4, vs = [a0, a1, a2, a3, a4] := by
      match vs, e2 with
      | [a0, a1, a2, a3, a4], _ => exact ⟨a0, a1, a2, a3, a4, rfl⟩
    obtain ⟨b0, b1, b2, b3, rfl⟩ : ∃ b0 b1 b2 b3, ss = [b0, b1, b2, b3] := by
      match ss, f2 with
      | [b0, b1, b2, b3], _ => exact ⟨b0, b1, b2, b3, rfl⟩
    refine ⟨[a0, a1, a2, a3, a4], .tuple [b0, b1, b2, b3], ?_, e3, fun g _ _ => ?_⟩
    · simp only [treeFlatten, rescaleChildren, e1, f1, bind, Except.bind, pure, Except.pure]
    · have e5 := fun base : Attrs A => Except.ok.inj (e4 g base (by decide))
      have f5 := fun base : Attrs A => Except.ok.inj (f4 id base (by decide))
      have e6 := congrArg (fun F : Attrs A => (Except.ok (Py.obj .rescale F) : Except String (Py A))) (e5 (setAttr (setAttr (setAttr (setAttr
        newRescaleAttrs "moduli" b0) "num_rescales" b1) "r" b2) "c" b3))
      refine e6.trans ?_
      congr 2
      funext k
      have f6 := congrFun (f5 newRescaleAttrs) k
      by_cases hk : k ∈ dynamicAttrs .rescale
      · exact (if_pos hk).trans (if_pos hk).symm
      · refine (if_neg hk).trans (Eq.trans ?_ (if_neg hk).symm)
        refine f6.trans ?_
        by_cases hs : k ∈ staticAttrs .rescale
        · exact (if_pos hs).trans (by simp)
        · refine (if_neg hs).trans ?_
          have := (h1 k).not.2 (by simp only [List.mem_append]; tauto)
          rw [Option.not_isSome_iff_eq_none] at this
          rw [this]
          simp only [dynamicAttrs, staticAttrs, List.mem_cons, List.not_mem_nil, or_false, not_or] at hk hs
          simp [newRescaleAttrs, setAttr, Function.update, hk, hs]
  | mul =>
    rcases h with ⟨rfl, hP⟩ | ⟨h1, h2, ⟨om, em, dnum, alpha, parts, r, c, cd, m1, m2, m3, m4, m5, m6, m7, m8, m9, m10,
      m11, m12, m13⟩, hinj⟩
    · refine ⟨List.replicate 14 .none, .tuple [.bool false], ?_, fun x hx => ?_, fun g _ _ => ?_⟩
      · rfl
      · rw [List.eq_of_mem_replicate hx]; exact hP
      · refine congrArg (fun F : Attrs A => (Except.ok (Py.obj .mul F) : Except String (Py A))) ?_
        funext k
        by_cases hk : k ∈ dynamicAttrs .mul
        · rw [if_pos hk]
          simp only [dynamicAttrs, List.mem_cons, List.not_mem_nil, or_false] at hk
          rcases hk with h | h | h | h | h | h | h | h | h | h | h | h | h | h <;> subst h <;> rfl
        · rw [if_neg hk]
    · obtain ⟨vs, e1, e2, e3, e4⟩ := getAttrs_spec P o (dynamicAttrs .mul) (present h1 h2)
      refine ⟨vs, .tuple [.bool true, .tuple om, .tuple em, dnum, .int r, .int c, .int cd, alpha, parts], ?_, e3,
        fun g _ _ => ?_⟩
      · have e1' : getAttrs o mulChildren = .ok vs := e1
        have e6 : getAttrs o ["dnum", "r", "c", "composite_degree", "ks_alpha", "ks_num_parts_ql"] =
            .ok [dnum, .int r, .int c, .int cd, alpha, parts] :=
          getAttrs_cons _ _ _ _ _ m5 (getAttrs_cons _ _ _ _ _ m6 (getAttrs_cons _ _ _ _ _ m7
            (getAttrs_cons _ _ _ _ _ m8 (getAttrs_cons _ _ _ _ _ m9 (getAttrs_cons _ _ _ _ _ m10 rfl)))))
        simp only [treeFlatten, mulFlatten, getAttr, m1, m3, m4, e1', e6, toTuple, bind, Except.bind, pure,
          Except.pure]
      · have e5 := e4 g (newMulAttrs .none .none .none .none .none) (by decide)
        change setAttrs _ mulChildren _ = _ at e5
        simp only [treeUnflatten, mulUnflatten, e5, bind, Except.bind, pure, Except.pure, child,
          List.getElem?_cons_zero, List.getElem?_cons_succ, List.drop_succ_cons, List.drop_zero, setAttrs, toList]
        simp only [getAttr, setAttr, Function.update_self, ne_eq, String.reduceEq, not_false_eq_true,
          Function.update_of_ne, sliceNeg, listAdd, intMul]
        refine congrArg (fun F : Attrs A => (Except.ok (Py.obj .mul F) : Except String (Py A))) ?_
        have hcd : (0 : Int) < cd := by exact_mod_cast m2
        rw [if_pos hcd, Int.toNat_natCast]
        funext k
        by_cases hs : k ∈ staticAttrs .mul
        · have hd : k ∉ dynamicAttrs .mul := by
            revert k
            decide
          rw [if_neg hd]
          have i1 := hinj "_injected_bconv" (by decide)
          have i2 := hinj "_injected_ntt_current" (by decide)
          have i3 := hinj "_injected_ntt_extend" (by decide)
          have i4 := hinj "_injected_ntt_factory" (by decide)
          have i5 := hinj "_injected_full_ntt" (by decide)
          simp only [staticAttrs, List.mem_cons, List.not_mem_nil, or_false] at hs
          rcases hs with h | h | h | h | h | h | h | h | h | h | h | h | h | h | h | h | h <;> subst h <;>
            simp only [Function.update_self, ne_eq, String.reduceEq, not_false_eq_true, Function.update_of_ne, m1, m3,
              m4, m5, m6, m7, m8, m9, m10, m11, m12, m13, i1, i2, i3, i4, i5, if_neg hd] <;> rfl
        · simp only [staticAttrs, List.mem_cons, List.not_mem_nil, or_false, not_or] at hs
          obtain ⟨s1, s2, s3, s4, s5, s6, s7, s8, s9, s10, s11, s12, s13, s14, s15, s16, s17⟩ := hs
          simp only [Function.update_of_ne, s1, s2, s3, s4, s5, s6, s7, s8, s9, s10, s11, s12, ne_eq,
            not_false_eq_true]
          by_cases hd : k ∈ dynamicAttrs .mul
          · rw [if_pos hd, if_pos hd]
          · rw [if_neg hd, if_neg hd]
            have := (h1 k).not.2 (by
              simp only [List.mem_append, staticAttrs, List.mem_cons, List.not_mem_nil, or_false]
              tauto)
            rw [Option.not_isSome_iff_eq_none] at this
            rw [this]
            simp only [newMulAttrs, setAttr, Function.update_of_ne, s12, s13, s14, s15, s16, s17, ne_eq,
              not_false_eq_true]

/-- Flattening succeeds, and building from mapped leaves gives the mapped value. -/
theorem build_flatten (rebuild : Py A → Except String (Py A)) (f : Py A → Py A)
    (hf : ∀ a, rebuild (.arr a) = .ok (.arr a) → rebuild (f (.arr a)) = .ok (f (.arr a))) :
    ∀ (n : Nat) (v : Py A), Good rebuild n v → ∃ ls t, flatten n v = .ok (ls, t) ∧
      ∀ rest, build rebuild n t (ls.map f ++ rest) = .ok (mapLeaves f n v, rest)
  | 0, _, h => h.elim
  | n + 1, v, h => by
    have ih := build_flatten rebuild f hf n
    -- lists of well-formed values
    have hall : ∀ xs : List (Py A), (∀ x ∈ xs, Good rebuild n x) → ∃ ps, xs.mapM (flatten n) = .ok ps ∧ ∀ rest,
        buildAll (build rebuild n) (ps.map (·.2)) ((ps.flatMap (·.1)).map f ++ rest) =
          .ok (xs.map (mapLeaves f n), rest) := by
      intro xs hxs
      obtain ⟨ps, h1, h2⟩ := mapM_ok (flatten n) xs (fun x hx => by
        obtain ⟨ls, t, h, -⟩ := ih x (hxs x hx); exact ⟨_, h⟩)
      refine ⟨ps, h1, buildAll_ok _ f _ xs ps ?_⟩
      clear h1
      induction h2 with
      | nil => exact .nil
      | @cons x p xs ps hx h2 ih2 =>
        refine .cons ?_ (ih2 (fun x hx => hxs x (by simp [hx])))
        obtain ⟨ls, t, e, hb⟩ := ih x (hxs x (by simp))
        rw [hx] at e
        cases e
        exact hb
    cases v with
    | none => exact ⟨[], .none, rfl, fun rest => rfl⟩
    | bool b => exact ⟨[_], .leaf, rfl, fun rest => rfl⟩
    | int b => exact ⟨[_], .leaf, rfl, fun rest => rfl⟩
    | arr b => exact ⟨[_], .leaf, rfl, fun rest => rfl⟩
    | list xs =>
      obtain ⟨ps, h1, h2⟩ := hall xs h
      refine ⟨ps.flatMap (·.1), .list (ps.map (·.2)), ?_, fun rest => ?_⟩
      · simp only [flatten, h1, bind, Except.bind, pure, Except.pure]
      · simp only [build, h2, bind, Except.bind, pure, Except.pure, mapLeaves]
    | tuple xs =>
      obtain ⟨ps, h1, h2⟩ := hall xs h
      refine ⟨ps.flatMap (·.1), .tuple (ps.map (·.2)), ?_, fun rest => ?_⟩
      · simp only [flatten, h1, bind, Except.bind, pure, Except.pure]
      · simp only [build, h2, bind, Except.bind, pure, Except.pure, mapLeaves]
    | obj c o =>
      by_cases hc : ∃ s, c = .unregistered s
      · obtain ⟨s, rfl⟩ := hc
        exact ⟨[_], .leaf, rfl, fun rest => rfl⟩
      · push Not at hc
        obtain ⟨children, aux, h1, h2, h3⟩ := object_ok rebuild _ c hc o h
        obtain ⟨ps, h4, h5⟩ := hall children h2
        refine ⟨ps.flatMap (·.1), .node c aux (ps.map (·.2)), ?_, fun rest => ?_⟩
        · rw [flatten]
          simp only [h1, bind, Except.bind, pure, Except.pure]
          rw [h4]
        · have := h3 (mapLeaves f n) (by cases n <;> rfl) (fun a hP ha => by
            rcases n with _ | n
            · exact hP.elim
            · exact hf a ha)
          simp only [build, h5, this, bind, Except.bind, pure, Except.pure]
          cases c <;> first | rfl | exact absurd rfl (hc _)

/-- C80: `tree_map`. For every well-formed value (any nesting of lists, tuples and objects of the package),
applying a function to all leaves succeeds and returns the same value with exactly the array data replaced: same
classes, same configuration. `f` must map an array that `AddModularSubtract` can hold to one it can hold. -/
theorem C80_tree_map (rebuild : Py A → Except String (Py A)) (f : Py A → Py A)
    (hf : ∀ a, rebuild (.arr a) = .ok (.arr a) → rebuild (f (.arr a)) = .ok (f (.arr a)))
    (n : Nat) (v : Py A) (h : Good rebuild n v) : treeMap rebuild n f v = .ok (mapLeaves f n v) := by
  obtain ⟨ls, t, h1, h2⟩ := build_flatten rebuild f hf n v h
  have h3 := h2 []
  rw [List.append_nil] at h3
  simp only [treeMap, h1, bind, Except.bind, unflatten, h3, List.isEmpty_nil, if_true, pure, Except.pure]

/-- C80: round trip. Flattening succeeds and unflattening returns the original value, every attribute included. -/
theorem C80_round_trip (rebuild : Py A → Except String (Py A)) (n : Nat) (v : Py A) (h : Good rebuild n v) :
    ∃ ls t, flatten n v = .ok (ls, t) ∧ unflatten rebuild n t ls = .ok v := by
  obtain ⟨ls, t, h1, h2⟩ := build_flatten rebuild id (fun _ h => h) n v h
  refine ⟨ls, t, h1, ?_⟩
  have h3 := h2 []
  rw [List.append_nil, List.map_id, mapLeaves_id] at h3
  simp only [bind, Except.bind, unflatten, h3, List.isEmpty_nil, if_true, pure, Except.pure]

/-- C80: a tree definition takes exactly the leaves it was made with; more are refused. -/
theorem C80_extra_leaves (rebuild : Py A → Except String (Py A)) (n : Nat) (v : Py A) (h : Good rebuild n v)
    (extra : List (Py A)) (he : extra ≠ []) :
    ∃ ls t, flatten n v = .ok (ls, t) ∧ unflatten rebuild n t (ls ++ extra) = .error "ValueError: too many leaves" := by
  obtain ⟨ls, t, h1, h2⟩ := build_flatten rebuild id (fun _ h => h) n v h
  refine ⟨ls, t, h1, ?_⟩
  have h3 := h2 extra
  rw [List.map_id, mapLeaves_id] at h3
  cases extra with
  | nil => exact absurd rfl he
  | cons x r => simp [bind, Except.bind, unflatten, h3]

/-- C80: two well-formed values with the same leaves and the same tree definition are equal, so a compiled
function is never reused for a differently configured kernel. -/
theorem C80_faithful (rebuild : Py A → Except String (Py A)) (n : Nat) (v w : Py A) (hv : Good rebuild n v)
    (hw : Good rebuild n w) (h : flatten n v = flatten n w) : v = w := by
  obtain ⟨ls, t, h1, h2⟩ := C80_round_trip rebuild n v hv
  obtain ⟨ls', t', h1', h2'⟩ := C80_round_trip rebuild n w hw
  rw [h1, h1'] at h
  cases h
  rw [h2] at h2'
  exact Except.ok.inj h2'

/-- C80: arguments of jitted functions. If all leaves are arrays or python scalars, the body sees the argument
with every leaf replaced by its tracer; otherwise the call is rejected. -/
theorem C80_jit (rebuild : Py A → Except String (Py A)) (trace : Py A → Py A)
    (hf : ∀ a, rebuild (.arr a) = .ok (.arr a) → rebuild (trace (.arr a)) = .ok (trace (.arr a)))
    (n : Nat) (v : Py A) (h : Good rebuild n v) (ls : List (Py A)) (t : TreeDef A)
    (hl : flatten n v = .ok (ls, t)) :
    jitArgument rebuild n trace v = if ls.all isArrayLike then .ok (mapLeaves trace n v)
      else .error "TypeError: not a valid JAX type" := by
  have h1 := C80_tree_map rebuild trace hf n v h
  simp only [treeMap, hl, bind, Except.bind] at h1
  simp only [jitArgument, hl, bind, Except.bind, h1]

/-- C80: an initialised `Mul` with injected kernels. The rebuilt kernel has all constants; only the five
constructor arguments, which are not read after `precompute_constants`, are reset to `None`. -/
theorem C80_mul_injected (rebuild : Py A → Except String (Py A)) (n : Nat) (o : Attrs A)
    (h1 : ∀ k, (o k).isSome ↔ k ∈ dynamicAttrs .mul ++ staticAttrs .mul)
    (h2 : ∀ k ∈ dynamicAttrs .mul, ∀ v, o k = some v → Good rebuild n v) (h3 : MulReady o) :
    ∃ o', treeMap rebuild (n + 1) id (.obj .mul o) = .ok (.obj .mul o') ∧ NoInjection o' ∧
      ∀ k, k ∉ ["_injected_bconv", "_injected_ntt_current", "_injected_ntt_extend", "_injected_ntt_factory",
        "_injected_full_ntt"] → o' k = o k := by
  set I := ["_injected_bconv", "_injected_ntt_current", "_injected_ntt_extend", "_injected_ntt_factory",
        "_injected_full_ntt"] with hI
  obtain ⟨o', ho⟩ : ∃ o' : Attrs A, o' = fun k => if k ∈ I then some .none else o k := ⟨_, rfl⟩
  have hne : ∀ k, k ∉ I → o' k = o k := fun k hk => by rw [ho]; exact if_neg hk
  have hin : ∀ k, k ∈ I → o' k = some .none := fun k hk => by rw [ho]; exact if_pos hk
  have hsub : ∀ k ∈ I, k ∈ dynamicAttrs .mul ++ staticAttrs .mul := by rw [hI]; decide
  have hdyn : ∀ k ∈ dynamicAttrs .mul, k ∉ I := by rw [hI]; decide
  have hg : Good rebuild (n + 1) (.obj .mul o') := by
    refine Or.inr ⟨fun k => ?_, fun k hk v hv => ?_, ?_, hin⟩
    · by_cases hk : k ∈ I
      · rw [hin k hk]; simpa using hsub k hk
      · rw [hne k hk]; exact h1 k
    · rw [hne k (hdyn k hk)] at hv
      exact h2 k hk v hv
    · obtain ⟨om, em, dnum, alpha, parts, r, c, cd, m⟩ := h3
      refine ⟨om, em, dnum, alpha, parts, r, c, cd, ?_⟩
      rw [hne "is_initialized" (by decide), hne "original_moduli" (by decide), hne "extend_moduli" (by decide),
        hne "dnum" (by decide), hne "r" (by decide), hne "c" (by decide), hne "composite_degree" (by decide),
        hne "ks_alpha" (by decide), hne "ks_num_parts_ql" (by decide), hne "drop_last_moduli" (by decide),
        hne "drop_last_extend_moduli" (by decide), hne "degree" (by decide)]
      exact m
  refine ⟨o', ?_, hin, hne⟩
  have e := C80_tree_map rebuild id (fun _ h => h) (n + 1) _ hg
  rw [mapLeaves_id] at e
  rw [← e]
  have ga : ∀ k, k ∉ I → getAttr o k = getAttr o' k := fun k hk => by unfold getAttr; rw [hne k hk]
  have gs : ∀ ks : List String, (∀ k ∈ ks, k ∉ I) → getAttrs o ks = getAttrs o' ks := by
    intro ks hks
    unfold getAttrs
    induction ks with
    | nil => rfl
    | cons k ks ih =>
      rw [List.mapM_cons, List.mapM_cons, ga k (hks k (by simp)), ih (fun k hk => hks k (by simp [hk]))]
  have ef : treeFlatten .mul o = treeFlatten .mul o' := by
    simp only [treeFlatten, mulFlatten]
    rw [ga "is_initialized" (by decide), gs mulChildren (by decide), ga "original_moduli" (by decide),
      ga "extend_moduli" (by decide), gs _ (by decide)]
  have es : treeFlatten .mul o' = some (mulFlatten o') := rfl
  unfold treeMap flatten
  simp only [ef, es]

/-- C80: kernels injected into a `Mul` that is flattened before `precompute_constants` are lost (the class
comment warns of this, mul.py L574-L575): whatever was injected, the result is `Mul()`. -/
theorem C80_mul_uninitialised (rebuild : Py A → Except String (Py A)) (n : Nat) (bconv cur ext fac full : Py A) :
    treeMap rebuild (n + 2) id (.obj .mul (newMulAttrs bconv cur ext fac full)) =
      .ok (.obj .mul (newMulAttrs .none .none .none .none .none)) := by
  rfl

example := C80_mul_uninitialised (A := Nat) Except.ok 1 (.int 1) (.int 2) (.int 3) (.int 4) (.int 5)

/-- C80 fails for `AddModularSubtract` and placeholder leaves (as `jax.vmap` passes when it checks `in_axes`):
`tree_unflatten` calls `jnp.array(list(child))`, and if that raises, so does every transformation. -/
theorem C80_placeholder_false (rebuild : Py A → Except String (Py A)) (f : Py A → Py A) (n : Nat) (a : A) (err : String)
    (h : rebuild (f (.arr a)) = .error err) :
    treeMap rebuild (n + 2) f (.obj .addModularSubtract (setAttr (fun _ => none) "moduli" (.arr a))) = .error err := by
  have e : flatten (n + 2) (.obj .addModularSubtract (setAttr (fun _ => none) "moduli" (.arr a))) =
      .ok ([.arr a], .node .addModularSubtract .none [.leaf]) := rfl
  simp only [treeMap, e, bind, Except.bind, unflatten, build, buildAll, List.map_cons, List.map_nil, pure, Except.pure,
    treeUnflatten, child, List.getElem?_cons_zero, h]

/-- C80 fails for `types.EvaluationKeys`, the type that key generation returns: the class is not registered (its
namesake `mul.EvaluationKeys` is), so a key passed to a jitted function is rejected. -/
theorem C80_unregistered_false (rebuild : Py A → Except String (Py A)) (trace : Py A → Py A) (n : Nat) (o : Attrs A)
    (name : String) : jitArgument rebuild (n + 1) trace (.obj (.unregistered name) o) =
      .error "TypeError: not a valid JAX type" := by
  rfl

example := C80_unregistered_false (A := Nat) Except.ok id 1 (fun _ => none) "CKKSKernel"

/-- The registered namesake is accepted. -/
theorem C80_mul_evaluation_keys (rebuild : Py A → Except String (Py A)) (n : Nat) (a b m : A) (t : A → A) :
    jitArgument rebuild (n + 2) (fun v => match v with | .arr x => .arr (t x) | v => v)
      (.obj .mulEvaluationKeys (setAttr (setAttr (setAttr (fun _ => none) "a" (.arr a)) "b" (.arr b)) "moduli" (.arr m)))
      = .ok (.obj .mulEvaluationKeys
        (setAttr (setAttr (setAttr (fun _ => none) "a" (.arr (t a))) "b" (.arr (t b))) "moduli" (.arr (t m)))) := by
  rfl

example := C80_mul_evaluation_keys (A := Nat) Except.ok 1 3 4 5 (· + 1)

private theorem isSome_setAttr (o : Attrs A) (k j : String) (v : Py A) :
    (setAttr o k v j).isSome ↔ j = k ∨ (o j).isSome := by
  unfold setAttr
  by_cases h : j = k
  · subst h; simp
  · simp [h]

/-- C80: what the constructors of the kernels return is well formed. -/
theorem C80_constructors (rebuild : Py A → Except String (Py A)) (n : Nat) :
    Good rebuild (n + 2) (newKeySwitcher : Py A) ∧ Good rebuild (n + 2) (newBconv : Py A) ∧
    Good rebuild (n + 2) (newNtt : Py A) ∧ Good rebuild (n + 2) (.obj .rescale (newRescaleAttrs : Attrs A)) ∧
    Good rebuild (n + 2) (.obj .mul (newMulAttrs .none .none .none .none .none : Attrs A)) ∧
    Good rebuild (n + 3) (.obj .blindRotation (newBlindAttrs : Attrs A)) := by
  have h1 : ∀ n, Good rebuild (n + 2) (newKeySwitcher : Py A) := by
    intro n
    refine ⟨fun k => ?_, fun k hk v hv => ?_, fun h => by cases h⟩
    · simp only [isSome_setAttr, dynamicAttrs, staticAttrs, List.append_nil, List.mem_cons, List.not_mem_nil,
        Option.isSome_none, Bool.false_eq_true, or_false]
      tauto
    · simp only [dynamicAttrs, List.mem_cons, List.not_mem_nil, or_false] at hk
      rcases hk with h | h <;> subst h <;> cases hv <;> simp [Good]
  have h2 : ∀ n, Good rebuild (n + 2) (newBconv : Py A) := by
    intro n
    refine ⟨fun k => ?_, fun k hk v hv => ?_, fun h => by cases h⟩
    · simp only [isSome_setAttr, dynamicAttrs, staticAttrs, List.append_nil, List.mem_cons, List.not_mem_nil,
        Option.isSome_none, Bool.false_eq_true, or_false]
    · simp only [dynamicAttrs, List.mem_cons, List.not_mem_nil, or_false] at hk
      subst hk; cases hv; simp [Good]
  have h3 : ∀ n, Good rebuild (n + 2) (newNtt : Py A) := by
    intro n
    refine ⟨fun k => ?_, fun k hk v hv => ?_, fun h => by cases h⟩
    · simp only [isSome_setAttr, dynamicAttrs, staticAttrs, List.append_nil, List.mem_cons, List.not_mem_nil,
        Option.isSome_none, Bool.false_eq_true, or_false]
    · simp only [dynamicAttrs, List.mem_cons, List.not_mem_nil, or_false] at hk
      subst hk; cases hv; simp [Good]
  have h4 : ∀ n, Good rebuild (n + 2) (.obj .rescale (newRescaleAttrs : Attrs A)) := by
    intro n
    refine ⟨fun k => ?_, fun k hk v hv => ?_, fun h => by cases h⟩
    · simp only [newRescaleAttrs, isSome_setAttr, dynamicAttrs, staticAttrs, List.cons_append, List.nil_append,
        List.mem_cons, List.not_mem_nil, Option.isSome_none, Bool.false_eq_true, or_false]
      tauto
    · simp only [dynamicAttrs, List.mem_cons, List.not_mem_nil, or_false] at hk
      rcases hk with h | h | h | h | h <;> subst h <;> cases hv <;> simp [Good]
  refine ⟨h1 n, h2 n, h3 n, h4 n, Or.inl ⟨rfl, trivial⟩, fun k => ?_, fun k hk v hv => ?_, fun h => by cases h⟩
  · simp only [newBlindAttrs, isSome_setAttr, dynamicAttrs, staticAttrs, List.append_nil, List.mem_cons,
      List.not_mem_nil, Option.isSome_none, Bool.false_eq_true, or_false]
    tauto
  · simp only [dynamicAttrs, List.mem_cons, List.not_mem_nil, or_false] at hk
    rcases hk with h | h | h | h | h | h <;> subst h <;> cases hv
    · exact h1 n
    · exact h2 n
    · refine ⟨fun k => ?_, fun k hk v hv => ?_, fun h => by cases h⟩
      · simp only [isSome_setAttr, dynamicAttrs, staticAttrs, List.append_nil, List.mem_cons, List.not_mem_nil,
          Option.isSome_none, Bool.false_eq_true, or_false]
      · simp only [dynamicAttrs, List.mem_cons, List.not_mem_nil, or_false] at hk
        subst hk; cases hv; simp [Good]
    · exact h4 n
    · exact h3 n
    · exact h3 n

/-- The attributes of a small initialised `Mul`: moduli 97, 193, 257 (the last is dropped) and 7681, on a ring of
degree 4 * 2; arrays are lists of numbers, `[]` stands for the data not spelled out. -/
def mulExample (injected : Py (List Nat)) : Attrs (List Nat) := fun k =>
  if k ∈ dynamicAttrs .mul then some (if k = "PInvModq" then .arr [12, 34] else .list [.arr [], .none])
  else if k = "is_initialized" then some (.bool true)
  else if k = "original_moduli" then some (.list [.int 97, .int 193, .int 257])
  else if k = "extend_moduli" then some (.list [.int 7681])
  else if k = "r" then some (.int 4)
  else if k = "c" then some (.int 2)
  else if k = "composite_degree" then some (.int 1)
  else if k = "drop_last_moduli" then some (.list [.int 97, .int 193])
  else if k = "drop_last_extend_moduli" then some (.list [.int 97, .int 193, .int 7681])
  else if k = "degree" then some (.int 8)
  else if k ∈ ["dnum", "ks_alpha", "ks_num_parts_ql"] then some (.int 2)
  else if k ∈ staticAttrs .mul then some injected
  else none

theorem mulExample_ready (rebuild : Py (List Nat) → Except String (Py (List Nat))) (i : Py (List Nat)) :
    (∀ k, (mulExample i k).isSome ↔ k ∈ dynamicAttrs .mul ++ staticAttrs .mul) ∧
    (∀ k ∈ dynamicAttrs .mul, ∀ v, mulExample i k = some v → Good rebuild 2 v) ∧ MulReady (mulExample i) := by
  refine ⟨fun k => ?_, fun k hk v hv => ?_, ?_⟩
  · by_cases hk : k ∈ dynamicAttrs .mul
    · simp only [mulExample, hk, if_true, Option.isSome_some, List.mem_append, true_or]
    · by_cases hs : k ∈ staticAttrs .mul
      · have : (mulExample i k).isSome := by
          simp only [mulExample, if_neg hk, if_pos hs]
          split_ifs <;> rfl
        simp only [this, List.mem_append, hs, or_true]
      · have hs' := hs
        simp only [staticAttrs, List.mem_cons, List.not_mem_nil, or_false, not_or] at hs'
        obtain ⟨s1, s2, s3, s4, s5, s6, s7, s8, s9, s10, s11, s12, s13, s14, s15, s16, s17⟩ := hs'
        simp only [mulExample, s1, s2, s3, s4, s5, s6, s7, s8, s9, s10, s11, s12, if_false,
          List.mem_cons, List.not_mem_nil, or_false, Option.isSome_none, List.mem_append, hk, hs, Bool.false_eq_true]
  · simp only [mulExample, if_pos hk, Option.some.injEq] at hv
    subst hv
    split_ifs
    · trivial
    · intro x hx
      simp only [List.mem_cons, List.not_mem_nil, or_false] at hx
      rcases hx with h | h <;> subst h <;> trivial
  · exact ⟨[.int 97, .int 193, .int 257], [.int 7681], .int 2, .int 2, .int 2, 4, 2, 1, rfl, by decide, rfl, rfl, rfl,
      rfl, rfl, rfl, rfl, rfl, rfl, rfl, rfl⟩

/-- Hypotheses (of `C80_round_trip`, `C80_extra_leaves`, `C80_tree_map`, `C80_faithful`, `C80_jit`) are met by an initialised multiplication kernel inside a list, by one with injected kernels, and by
`AddModularSubtract`; the placeholder counterexample is met by a conversion that rejects the empty array. -/
example : (∃ ls t, flatten 5 (.list [.obj .mul (mulExample .none), .int 3]) = .ok (ls, t) ∧
      unflatten Except.ok 5 t ls = .ok (.list [.obj .mul (mulExample .none), .int 3])) ∧
    (∃ o', treeMap Except.ok 3 id (.obj .mul (mulExample (.int 7))) = .ok (.obj .mul o') ∧ NoInjection o' ∧
      o' "PInvModq" = some (.arr [12, 34])) ∧
    treeMap (A := List Nat) (fun v => match v with | .arr [] => .error "TypeError" | v => .ok v) 2
      (fun _ => .arr []) (.obj .addModularSubtract (setAttr (fun _ => none) "moduli" (.arr [97]))) =
      .error "TypeError" := by
  refine ⟨C80_round_trip _ 5 _ ?_, ?_, C80_placeholder_false _ _ 0 [97] _ rfl⟩
  · intro x hx
    simp only [List.mem_cons, List.not_mem_nil, or_false] at hx
    rcases hx with h | h <;> subst h
    · obtain ⟨h1, h2, h3⟩ := mulExample_ready Except.ok .none
      refine Or.inr ⟨h1, fun k hk v hv => ?_, h3, fun k hk => ?_⟩
      · simp only [mulExample, if_pos hk, Option.some.injEq] at hv
        subst hv
        split_ifs
        · trivial
        · intro x hx
          simp only [List.mem_cons, List.not_mem_nil, or_false] at hx
          rcases hx with h | h <;> subst h <;> trivial
      · simp only [List.mem_cons, List.not_mem_nil, or_false] at hk
        rcases hk with h | h | h | h | h <;> subst h <;> rfl
    · trivial
  · obtain ⟨h1, h2, h3⟩ := mulExample_ready Except.ok (.int 7)
    obtain ⟨o', e1, e2, e3⟩ := C80_mul_injected Except.ok 2 _ h1 h2 h3
    exact ⟨o', e1, e2, (e3 "PInvModq" (by decide)).trans rfl⟩

end Verif.Props
