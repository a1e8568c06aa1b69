import Verif.Model.PyTree
import Mathlib.Tactic.Ring
import Mathlib.Tactic.SplitIfs

/-!
# Lemmas for the transport of objects through JAX
-/

namespace Verif.PyTree
variable {A : Type}

theorem getAttrs_cons (o : Attrs A) (k : String) (ks : List String) (v : Py A) (vs : List (Py A))
    (h : o k = some v) (hs : getAttrs o ks = .ok vs) : getAttrs o (k :: ks) = .ok (v :: vs) := by
  unfold getAttrs at *
  rw [List.mapM_cons]
  unfold getAttr at *
  rw [h]
  simp only [bind, Except.bind, pure, Except.pure] at *
  rw [hs]

/-- Reading a list of attributes and storing images of the values under the same names. -/
theorem getAttrs_spec (P : Py A → Prop) (o : Attrs A) : ∀ ks : List String,
    (∀ k ∈ ks, ∃ v, o k = some v ∧ P v) →
    ∃ vs, getAttrs o ks = .ok vs ∧ vs.length = ks.length ∧ (∀ v ∈ vs, P v) ∧
      ∀ (g : Py A → Py A) (base : Attrs A), ks.Nodup →
        setAttrs base ks (vs.map g) = .ok (fun k => if k ∈ ks then (o k).map g else base k)
  | [], _ => ⟨[], rfl, rfl, by simp, fun g base _ => by simp [setAttrs]⟩
  | k :: ks, h => by
    obtain ⟨v, hv, hP⟩ := h k (by simp)
    obtain ⟨vs, h1, h2, h3, h4⟩ := getAttrs_spec P o ks (fun k hk => h k (by simp [hk]))
    refine ⟨v :: vs, getAttrs_cons o k ks v vs hv h1, by simp [h2], ?_, ?_⟩
    · intro w hw
      rcases List.mem_cons.1 hw with e | e
      · rw [e]; exact hP
      · exact h3 w e
    · intro g base hn
      rw [List.nodup_cons] at hn
      rw [List.map_cons, setAttrs, h4 g _ hn.2]
      congr 1
      funext j
      by_cases hj : j ∈ ks
      · simp [hj]
      · by_cases hk : j = k
        · subst hk
          simp [hj, hv, setAttr]
        · simp [hj, hk, setAttr, Function.update_of_ne hk]

theorem mapM_ok {β γ : Type} (f : β → Except String γ) : ∀ (xs : List β), (∀ x ∈ xs, ∃ y, f x = .ok y) →
    ∃ ys, xs.mapM f = .ok ys ∧ List.Forall₂ (fun x y => f x = .ok y) xs ys
  | [], _ => ⟨[], rfl, .nil⟩
  | x :: xs, h => by
    obtain ⟨y, hy⟩ := h x (by simp)
    obtain ⟨ys, h1, h2⟩ := mapM_ok f xs (fun x hx => h x (by simp [hx]))
    refine ⟨y :: ys, ?_, .cons hy h2⟩
    rw [List.mapM_cons, hy]
    simp only [bind, Except.bind, pure, Except.pure] at *
    rw [h1]

/-- If every element can be rebuilt from its own leaves, so can the list. -/
theorem buildAll_ok (g : TreeDef A → List (Py A) → Except String (Py A × List (Py A)))
    (f : Py A → Py A) (m : Py A → Py A) : ∀ (xs : List (Py A)) (ps : List (List (Py A) × TreeDef A)),
    List.Forall₂ (fun x p => ∀ rest, g p.2 (p.1.map f ++ rest) = .ok (m x, rest)) xs ps → ∀ rest,
    buildAll g (ps.map (·.2)) ((ps.flatMap (·.1)).map f ++ rest) = .ok (xs.map m, rest)
  | [], [], _, rest => by simp [buildAll]
  | x :: xs, p :: ps, h, rest => by
    rcases h with _ | ⟨h1, h2⟩
    have ih := buildAll_ok g f m xs ps h2 rest
    rw [List.map_cons, List.flatMap_cons, List.map_append, List.append_assoc, buildAll, h1]
    simp only [bind, Except.bind, pure, Except.pure]
    rw [ih]
    rfl

end Verif.PyTree
