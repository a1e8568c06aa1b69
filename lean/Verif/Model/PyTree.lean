import Mathlib.Logic.Function.Basic

/-!
# Transport of the CKKS objects through JAX (pytrees)

`jax.jit`, `jax.vmap`, `jax.tree_util.tree_map`, … do not pass python objects around: they flatten an argument
into a list of leaves and a tree definition and build a new object from them. The classes of `jaxite_ckks` take
part in this by their `tree_flatten` / `tree_unflatten` methods, modelled here one by one.

Simplifications. A python object is its class and its attribute dictionary (a partial function from names to
values). Arrays are elements of an arbitrary type `A` (a device array, a tracer, a placeholder object). The
recursion of `jax.tree_util` carries the recursion depth as its first argument; python dictionaries, which no
class of the package uses as a child, are left out.
-/

namespace Verif.PyTree

/-- The classes of `jaxite_ckks` decorated with `@jax.tree_util.register_pytree_node_class`, and (`unregistered`)
those without: `types.PublicKey`, `types.SecretKey`, `types.EvaluationKeys` (jaxite_ckks/types.py L40-L62). -/
inductive Cls
  | plaintext | ciphertext | hMuxRotKey | muxRotationKey
  | addSimple | addModularBarrett | addModularSubtract
  | barrettConstants | bconvConstants | bconvBarrett
  | nttConstants | nttBarrett | keySwitcher | conjugation
  | mulPtSimple | mulPtBarrett | mulEvaluationKeys | mul | rescale | blindRotation
  | unregistered (name : String)
deriving DecidableEq

/-- Python values. -/
inductive Py (A : Type)
  | none
  | bool (b : Bool)
  | int (n : Int)
  | arr (a : A)
  | list (xs : List (Py A))
  | tuple (xs : List (Py A))
  | obj (c : Cls) (attrs : String → Option (Py A))

variable {A : Type}

/-- An attribute dictionary (`obj.__dict__`). -/
abbrev Attrs (A : Type) := String → Option (Py A)

/-- `obj.name`. -/
def getAttr (o : Attrs A) (k : String) : Except String (Py A) :=
  match o k with
  | some v => .ok v
  | none => .error "AttributeError"

/-- `obj.name = v`. -/
def setAttr (o : Attrs A) (k : String) (v : Py A) : Attrs A := Function.update o k (some v)

/-- `(obj.k1, obj.k2, ...)`. -/
def getAttrs (o : Attrs A) (ks : List String) : Except String (List (Py A)) := ks.mapM (getAttr o)

/-- `(obj.k1, ..., obj.kn) = values`: python raises if the number of values differs. -/
def setAttrs (o : Attrs A) : List String → List (Py A) → Except String (Attrs A)
  | [], [] => .ok o
  | k :: ks, v :: vs => setAttrs (setAttr o k v) ks vs
  | _, _ => .error "ValueError: wrong number of values to unpack"

/-- The generated `__init__` of a dataclass with the given fields, called with positional arguments. -/
def dataclassInit (c : Cls) (fields : List String) (args : List (Py A)) : Except String (Py A) :=
  match setAttrs (fun _ => none) fields args with
  | .ok o => .ok (.obj c o)
  | .error _ => .error "TypeError: wrong number of arguments"

/-- `children[i]`. -/
def child (xs : List (Py A)) (i : Nat) : Except String (Py A) :=
  match xs[i]? with
  | some v => .ok v
  | none => .error "IndexError"

/-- `tuple(x)`. -/
def toTuple : Py A → Except String (Py A)
  | .list xs => .ok (.tuple xs)
  | .tuple xs => .ok (.tuple xs)
  | _ => .error "TypeError: not iterable"

/-- `list(x)` of a list or tuple. -/
def toList : Py A → Except String (Py A)
  | .list xs => .ok (.list xs)
  | .tuple xs => .ok (.list xs)
  | _ => .error "TypeError: not iterable"

/-- `x[:-k]` on a list: python drops the last `k` elements for `k > 0`, keeps the first `-k` for `k <= 0`. -/
def sliceNeg : Py A → Py A → Except String (Py A)
  | .list xs, .int k => .ok (.list (if 0 < k then xs.take (xs.length - k.toNat) else xs.take (-k).toNat))
  | _, _ => .error "TypeError"

/-- `x + y` on lists. -/
def listAdd : Py A → Py A → Except String (Py A)
  | .list xs, .list ys => .ok (.list (xs ++ ys))
  | _, _ => .error "TypeError"

/-- `x * y` on integers. -/
def intMul : Py A → Py A → Except String (Py A)
  | .int x, .int y => .ok (.int (x * y))
  | _, _ => .error "TypeError"

/-- `Plaintext.tree_flatten` (types.py L16-L17): children `data, moduli`. -/
def plaintextFields : List String := ["data", "moduli"]

/-- Fields of `BarrettConstants` in declaration order (barrett.py L19-L22). -/
def barrettFields : List String := ["m", "moduli", "w", "s_w"]

/-- Fields of `BarrettBasisConversionConstants` (basis_conversion.py L66-L69). -/
def bconvFields : List String := ["q_hat_inv_mod_q", "q_hat_mod_p_bat", "origin_barrett", "target_barrett"]

/-- Fields of `NTTBarrettConstants` in declaration order (ntt.py L58-L67). -/
def nttFields : List String :=
  ["ntt_bat_tf_step1", "ntt_tf_step2", "ntt_bat_tf_step3", "intt_bat_tf_step1", "intt_tf_step2",
    "intt_bat_tf_step3", "barrett_constants", "r", "c", "moduli"]

/-- Children of `NTTBarrettConstants.tree_flatten` (ntt.py L71-L80). -/
def nttChildren : List String :=
  ["ntt_bat_tf_step1", "ntt_tf_step2", "ntt_bat_tf_step3", "intt_bat_tf_step1", "intt_tf_step2",
    "intt_bat_tf_step3", "barrett_constants", "moduli"]

/-- Children of `Mul.tree_flatten` (mul.py L581-L596), also the targets of `Mul.tree_unflatten` (L618-L633). -/
def mulChildren : List String :=
  ["bconv", "ks_select_tower_index_overall", "ks_non_select_tower_index_overall", "ks_restore_indices",
    "full_ntt_constants", "ks_ntt_kernels", "PInvModq", "q_correction", "barrett_constants",
    "full_barrett_constants", "ntt_current", "ntt_extend", "drop_last_extend_moduli_jax", "q_correction_uint32"]

/-- Children of `Rescale.tree_flatten` (rescale.py L228-L234) and targets of `tree_unflatten` (L242-L248). -/
def rescaleChildren : List String :=
  ["gammas_stacked", "betas_stacked", "thresholds", "ntt_last_limb_kernels", "ntt_remaining_limbs_kernels"]

/-- Children of `BlindRotation.tree_flatten` (blind_rotate.py L43-L50). -/
def blindChildren : List String := ["key_switcher", "bc_kernel", "mul_kernel", "rescale_kernel", "ntt_q", "ntt_p"]

/-- `NTTBarrett()` (ntt.py L110-L111). -/
def newNtt : Py A := .obj .nttBarrett (setAttr (fun _ => none) "constants" .none)

/-- `BasisConversionBarrett()` (basis_conversion.py L94-L95). -/
def newBconv : Py A := .obj .bconvBarrett (setAttr (fun _ => none) "precomputed_constants" (.list []))

/-- `KeySwitcher()` (key_switching.py L30-L32). -/
def newKeySwitcher : Py A :=
  .obj .keySwitcher (setAttr (setAttr (fun _ => none) "ntt_kernels_q" (.list [])) "ntt_kernels_out" (.list []))

/-- Attributes of `Rescale()` (rescale.py L86-L95). -/
def newRescaleAttrs : Attrs A :=
  setAttr (setAttr (setAttr (setAttr (setAttr (setAttr (setAttr (setAttr (setAttr (fun _ => none)
    "moduli" .none) "num_rescales" (.int 1)) "r" .none) "c" .none) "gammas_stacked" .none)
    "betas_stacked" .none) "thresholds" .none) "ntt_last_limb_kernels" (.list []))
    "ntt_remaining_limbs_kernels" (.list [])

/-- Attributes of `BlindRotation()` (blind_rotate.py L34-L40). -/
def newBlindAttrs : Attrs A :=
  setAttr (setAttr (setAttr (setAttr (setAttr (setAttr (fun _ => none)
    "key_switcher" newKeySwitcher) "bc_kernel" newBconv)
    "mul_kernel" (.obj .mulPtBarrett (setAttr (fun _ => none) "barrett_constants" .none)))
    "rescale_kernel" (.obj .rescale newRescaleAttrs)) "ntt_q" newNtt) "ntt_p" newNtt

/-- Attributes of `Mul(bconv, ntt_current, ntt_extend, ntt_factory, full_ntt)` (mul.py L134-L147). -/
def newMulAttrs (bconv nttCurrent nttExtend nttFactory fullNtt : Py A) : Attrs A :=
  setAttr (setAttr (setAttr (setAttr (setAttr (setAttr (fun _ => none)
    "is_initialized" (.bool false)) "_injected_bconv" bconv) "_injected_ntt_current" nttCurrent)
    "_injected_ntt_extend" nttExtend) "_injected_ntt_factory" nttFactory) "_injected_full_ntt" fullNtt

/-- `Mul.tree_flatten` (mul.py L576-L608). -/
def mulFlatten (o : Attrs A) : Except String (List (Py A) × Py A) := do
  match ← getAttr o "is_initialized" with
  | .bool true => do
    let children ← getAttrs o mulChildren
    let om ← toTuple (← getAttr o "original_moduli")
    let em ← toTuple (← getAttr o "extend_moduli")
    let rest ← getAttrs o ["dnum", "r", "c", "composite_degree", "ks_alpha", "ks_num_parts_ql"]
    return (children, .tuple (.bool true :: om :: em :: rest))
  | _ => return (List.replicate 14 .none, .tuple [.bool false])

/-- `Mul.tree_unflatten` (mul.py L610-L653). -/
def mulUnflatten (aux : Py A) (children : List (Py A)) : Except String (Py A) := do
  let o : Attrs A := newMulAttrs .none .none .none .none .none
  match aux with
  | .tuple (.bool true :: rest) => do
    let o ← setAttrs o mulChildren children
    let om ← child rest 0
    let em ← child rest 1
    let o ← setAttrs o ["dnum", "r", "c", "composite_degree", "ks_alpha", "ks_num_parts_ql"] (rest.drop 2)
    let o := setAttr o "original_moduli" (← toList om)
    let o := setAttr o "extend_moduli" (← toList em)
    let o := setAttr o "drop_last_moduli" (← sliceNeg (← getAttr o "original_moduli") (← getAttr o "composite_degree"))
    let o := setAttr o "drop_last_extend_moduli"
      (← listAdd (← getAttr o "drop_last_moduli") (← getAttr o "extend_moduli"))
    let o := setAttr o "degree" (← intMul (← getAttr o "r") (← getAttr o "c"))
    return .obj .mul (setAttr o "is_initialized" (.bool true))
  | .tuple (.bool false :: _) => return .obj .mul o
  | _ => .error "TypeError"

/-- `c.tree_flatten()`: children and auxiliary data; `none` for a class that is not registered.
Plaintext, Ciphertext, HMuxRotKey, MuxRotationKey: types.py L16-L17, L32-L33, L79-L80, L98-L99; AddSimple,
AddModularBarrett, AddModularSubtract: add.py L35-L36, L66-L67, L94-L95; BarrettConstants: barrett.py L24-L27;
BarrettBasisConversionConstants, BasisConversionBarrett: basis_conversion.py L71-L79, L97-L100;
NTTBarrettConstants, NTTBarrett: ntt.py L69-L82, L113-L116; KeySwitcher: key_switching.py L68-L71; Conjugation:
conjugate.py L43-L46; MulPlaintextCiphertextSimple, MulPlaintextCiphertextBarrett, EvaluationKeys, Mul: mul.py
L44-L45, L90-L91, L108-L110, L576-L608; Rescale: rescale.py L227-L236; BlindRotation: blind_rotate.py L42-L52. -/
def treeFlatten (c : Cls) (o : Attrs A) : Option (Except String (List (Py A) × Py A)) :=
  let plain (ks : List String) : Except String (List (Py A) × Py A) := do return (← getAttrs o ks, .none)
  match c with
  | .plaintext => some (plain plaintextFields)
  | .ciphertext => some (plain plaintextFields)
  | .hMuxRotKey => some (plain ["key0", "key1"])
  | .muxRotationKey => some (plain ["keys"])
  | .addSimple => some (.ok ([], .none))
  | .addModularBarrett => some (plain ["barrett_constants"])
  | .addModularSubtract => some (plain ["moduli"])
  | .barrettConstants => some (plain barrettFields)
  | .bconvConstants => some (plain bconvFields)
  | .bconvBarrett => some (plain ["precomputed_constants"])
  | .nttConstants => some do
      let children ← getAttrs o nttChildren
      let aux ← getAttrs o ["r", "c"]
      return (children, .tuple aux)
  | .nttBarrett => some (plain ["constants"])
  | .keySwitcher => some (plain ["ntt_kernels_q", "ntt_kernels_out"])
  | .conjugation => some (plain ["key_switcher"])
  | .mulPtSimple => some (.ok ([], .none))
  | .mulPtBarrett => some (plain ["barrett_constants"])
  | .mulEvaluationKeys => some do return (← getAttrs o ["a", "b", "moduli"], .tuple [])
  | .mul => some (mulFlatten o)
  | .rescale => some do
      let children ← getAttrs o rescaleChildren
      let aux ← getAttrs o ["moduli", "num_rescales", "r", "c"]
      return (children, .tuple aux)
  | .blindRotation => some (plain blindChildren)
  | .unregistered _ => none

/-- `cls.tree_unflatten(aux_data, children)`. `rebuild x` stands for `jnp.array(list(x), dtype=jnp.uint32)`, which
`AddModularSubtract.__init__` applies to the child (add.py L83). Lines: types.py L19-L21, L35-L37, L82-L84,
L101-L103; add.py L38-L40, L69-L72, L97-L100; barrett.py L29-L31; basis_conversion.py L81-L84, L102-L107; ntt.py
L84-L86, L118-L123; key_switching.py L73-L79; conjugate.py L48-L53; mul.py L47-L49, L93-L96, L112-L115,
L610-L653; rescale.py L238-L249; blind_rotate.py L54-L64. -/
def treeUnflatten (rebuild : Py A → Except String (Py A)) (c : Cls) (aux : Py A) (children : List (Py A)) :
    Except String (Py A) :=
  match c with
  | .plaintext | .ciphertext => do dataclassInit c plaintextFields [← child children 0, ← child children 1]
  | .hMuxRotKey => do dataclassInit c ["key0", "key1"] [← child children 0, ← child children 1]
  | .muxRotationKey => do dataclassInit c ["keys"] [← child children 0]
  | .addSimple | .mulPtSimple => .ok (.obj c (fun _ => none))
  | .addModularBarrett | .mulPtBarrett => do
      return .obj c (setAttr (fun _ => none) "barrett_constants" (← child children 0))
  | .addModularSubtract => do
      return .obj c (setAttr (fun _ => none) "moduli" (← rebuild (← child children 0)))
  | .barrettConstants => dataclassInit c barrettFields children
  | .bconvConstants => dataclassInit c bconvFields children
  | .bconvBarrett => do
      return .obj c (setAttr (setAttr (fun _ => none) "precomputed_constants" (.list []))
        "precomputed_constants" (← child children 0))
  | .nttConstants =>
      match aux with
      | .tuple as => do dataclassInit c nttFields (children.take 7 ++ as ++ [← child children 7])
      | _ => .error "TypeError"
  | .nttBarrett => do
      return .obj c (setAttr (setAttr (fun _ => none) "constants" .none) "constants" (← child children 0))
  | .keySwitcher => do
      let o : Attrs A := setAttr (setAttr (fun _ => none) "ntt_kernels_q" (.list [])) "ntt_kernels_out" (.list [])
      let o := setAttr o "ntt_kernels_q" (← child children 0)
      return .obj c (setAttr o "ntt_kernels_out" (← child children 1))
  | .conjugation => do
      let o : Attrs A := setAttr (fun _ => none) "key_switcher" newKeySwitcher
      return .obj c (setAttr o "key_switcher" (← child children 0))
  | .mulEvaluationKeys => dataclassInit c ["a", "b", "moduli"] children
  | .mul => mulUnflatten aux children
  | .rescale =>
      match aux with
      | .tuple as => do
        let o ← setAttrs newRescaleAttrs ["moduli", "num_rescales", "r", "c"] as
        return .obj c (← setAttrs o rescaleChildren children)
      | _ => .error "TypeError"
  | .blindRotation => do
      let o : Attrs A := newBlindAttrs
      let o := setAttr o "key_switcher" (← child children 0)
      let o := setAttr o "bc_kernel" (← child children 1)
      let o := setAttr o "mul_kernel" (← child children 2)
      let o := setAttr o "rescale_kernel" (← child children 3)
      let o := setAttr o "ntt_q" (← child children 4)
      return .obj c (setAttr o "ntt_p" (← child children 5))
  | .unregistered _ => .error "not a pytree node"

/-- A tree definition (`jax.tree_util.PyTreeDef`, external). -/
inductive TreeDef (A : Type)
  | leaf
  | none
  | list (ts : List (TreeDef A))
  | tuple (ts : List (TreeDef A))
  | node (c : Cls) (aux : Py A) (ts : List (TreeDef A))

/-- `jax.tree_util.tree_flatten(v)` (external; by its documentation): `None` has no leaves, lists, tuples and
registered objects are taken apart, everything else is a leaf. First argument: recursion limit. -/
def flatten : Nat → Py A → Except String (List (Py A) × TreeDef A)
  | 0, _ => .error "RecursionError"
  | n + 1, v =>
    match v with
    | .none => .ok ([], .none)
    | .list xs => do
      let ps ← xs.mapM (flatten n)
      return (ps.flatMap (·.1), .list (ps.map (·.2)))
    | .tuple xs => do
      let ps ← xs.mapM (flatten n)
      return (ps.flatMap (·.1), .tuple (ps.map (·.2)))
    | .obj c o =>
      match treeFlatten c o with
      | none => .ok ([v], .leaf)
      | some r => do
        let (children, aux) ← r
        let ps ← children.mapM (flatten n)
        return (ps.flatMap (·.1), .node c aux (ps.map (·.2)))
    | _ => .ok ([v], .leaf)

/-- Builds one subtree per definition, each from the leaves the previous one left over. -/
def buildAll (g : TreeDef A → List (Py A) → Except String (Py A × List (Py A))) :
    List (TreeDef A) → List (Py A) → Except String (List (Py A) × List (Py A))
  | [], ls => .ok ([], ls)
  | t :: ts, ls => do
    let (v, ls) ← g t ls
    let (vs, ls) ← buildAll g ts ls
    return (v :: vs, ls)

/-- The recursion of `tree_unflatten` (external): the built value and the unused leaves. -/
def build (rebuild : Py A → Except String (Py A)) :
    Nat → TreeDef A → List (Py A) → Except String (Py A × List (Py A))
  | 0, _, _ => .error "RecursionError"
  | n + 1, t, ls =>
    match t with
    | .leaf => match ls with
      | [] => .error "ValueError: too few leaves"
      | x :: r => .ok (x, r)
    | .none => .ok (.none, ls)
    | .list ts => do
      let (vs, ls) ← buildAll (build rebuild n) ts ls
      return (.list vs, ls)
    | .tuple ts => do
      let (vs, ls) ← buildAll (build rebuild n) ts ls
      return (.tuple vs, ls)
    | .node c aux ts => do
      let (vs, ls) ← buildAll (build rebuild n) ts ls
      return (← treeUnflatten rebuild c aux vs, ls)

/-- `jax.tree_util.tree_unflatten(treedef, leaves)` (external). -/
def unflatten (rebuild : Py A → Except String (Py A)) (n : Nat) (t : TreeDef A) (ls : List (Py A)) :
    Except String (Py A) := do
  let (v, r) ← build rebuild n t ls
  if r.isEmpty then return v else .error "ValueError: too many leaves"

/-- `jax.tree_util.tree_map(f, v)` (external). -/
def treeMap (rebuild : Py A → Except String (Py A)) (n : Nat) (f : Py A → Py A) (v : Py A) :
    Except String (Py A) := do
  let (ls, t) ← flatten n v
  unflatten rebuild n t (ls.map f)

/-- What `jax.jit` accepts as an array argument: arrays and python scalars. -/
def isArrayLike : Py A → Bool
  | .arr _ | .int _ | .bool _ => true
  | _ => false

/-- The argument as the body of a jitted function sees it (external): flattened, every leaf checked and replaced
by a tracer, rebuilt. -/
def jitArgument (rebuild : Py A → Except String (Py A)) (n : Nat) (trace : Py A → Py A) (v : Py A) :
    Except String (Py A) := do
  let (ls, t) ← flatten n v
  if ls.all isArrayLike then unflatten rebuild n t (ls.map trace)
  else .error "TypeError: not a valid JAX type"

end Verif.PyTree
