import Verif.Np
import Verif.Models.Label
import Verif.Models.Tracker

/-!
# Collecting the parameters of a model and compiling it

Model of `get_model_info` (`/repo/src/elisa/models/model.py:2124-2373`), of the parameter part of
`Model.compile` (`model.py:92-138`), of `CompiledModel.__init__` (`model.py:311-347`) and of
`CompiledModel._prepare_eval` (`model.py:366-413`).

Simplifications: LaTeX labels, units, bounds and prior texts are left out; parameter arrays are
scalars (no `vmap` over leading dimensions); interval parameters are only classified here, their
averaging is in `Verif.Models.Interval`.
-/

namespace Elisa.Models.Info

open Elisa.Models.Label Elisa.Models.Track

/-- What a non-composite parameter is: `DistParameter` that is not fixed, fixed `DistParameter` or
`ConstantValue`, `ConstantInterval` (parameter.py:328-844). -/
inductive Kind where
  | free | fixed | interval
deriving DecidableEq, Repr

/-- A component and the parameter in each of its slots (`comp.param_names`, `comp[name]`) (model.py:1570-1650). -/
structure Comp where
  cid : Cid
  /-- `cid_to_name[cid]` -/
  name : String
  params : List (PName × PExpr)

/-- The state of the parameter objects when the information is collected (parameter.py:187, 198-200). -/
structure Conf (K : Type) where
  kind : Pid → Kind
  default : Pid → K
  /-- `Parameter.name` of an auxiliary parameter, made unique by `build_namespace` -/
  auxName : Pid → String
  /-- `Parameter._tracker` -/
  hist : Pid → List (Cid × PName)

end Elisa.Models.Info

namespace Elisa.Models.Label

/-- `Parameter._id` (parameter.py:118-121). -/
def PExpr.id : PExpr → Nat
  | .leaf i => i
  | .bin i _ _ _ => i
  | .call i _ _ => i

/-- The parameters whose information `_info` collects, in order: itself, then those of its
operands, parameter.py:1072-1093. -/
def PExpr.nodes : PExpr → List PExpr
  | .leaf i => [.leaf i]
  | .bin i o l r => .bin i o l r :: (l.nodes ++ r.nodes)
  | .call i f a => .call i f a :: a.nodes

/-- Leaves, left to right, parameter.py:913-923 before the duplicate check. -/
def PExpr.leaves : PExpr → List Nat
  | .leaf i => [i]
  | .bin _ _ l r => l.leaves ++ r.leaves
  | .call _ _ a => a.leaves

end Elisa.Models.Label

namespace Elisa.Models.Info

open Elisa.Models.Label Elisa.Models.Track

/-- `_nodes_id`: the leaves without repetition, first occurrence kept, parameter.py:913-925 and 121. -/
def nodesId (e : PExpr) : List Pid := e.leaves.reverse.dedup.reverse

/-- `CompositeParameter.fixed`, parameter.py:1067-1070 (constants and intervals are fixed). -/
def allFixed {K : Type} (conf : Conf K) (e : PExpr) : Bool :=
  e.leaves.all fun p => conf.kind p != .free

/-- `CompositeParameter._has_interval`, parameter.py:905-912. -/
def hasInterval {K : Type} (conf : Conf K) (e : PExpr) : Bool :=
  e.leaves.any fun p => conf.kind p == .interval

/-- A dictionary built by `|` from one-entry dictionaries: a key keeps its first position. (Its
value is the last one; equal ids are the same object, so the values are the same.) (model.py:2124-2238). -/
def dedupId : List PExpr → List PExpr
  | [] => []
  | x :: xs => x :: (dedupId xs).filter fun y => y.id != x.id

/-- One slot of one component (model.py:2124-2238). -/
structure Slot where
  cid : Cid
  cname : String
  pname : PName
  e : PExpr

/-- `for comp in comps: for pname in comp.param_names` (model.py:2124-2238). -/
def slots (comps : List Comp) : List Slot :=
  comps.flatMap fun c => c.params.map fun q => ⟨c.cid, c.name, q.1, q.2⟩

/-- `params_info`, model.py:2146-2149. -/
def paramsInfo (comps : List Comp) : List PExpr := dedupId ((slots comps).flatMap fun s => s.e.nodes)

/-- `comp_param`, model.py:2152-2156: `info.tracker.get_comp_param(cid_to_name.keys())`. -/
def compParam {K : Type} (conf : Conf K) (comps : List Comp) (p : Pid) : Option (Cid × PName) :=
  getCompParam (conf.hist p) (comps.map Comp.cid)

/-- `aux_params`, model.py:2159-2163. -/
def auxParams {K : Type} (conf : Conf K) (comps : List Comp) : List Pid :=
  ((paramsInfo comps).filter fun e => (compParam conf comps e.id).isNone && !e.isComposite).map PExpr.id

/-- `cid_to_name[cid]` (model.py:2124-2238). -/
def nameOfCid (comps : List Comp) (cid : Cid) : Option String :=
  (comps.find? fun c => c.cid == cid).map Comp.name

/-- `name_mapping`, model.py:2169-2177, as a partial function: slot-assigned parameters are called
`component.slot`, the others by their (disambiguated) own name. -/
def nameMapping {K : Type} (conf : Conf K) (comps : List Comp) (p : Pid) : Option String :=
  match compParam conf comps p with
  | some (cid, pname) => (nameOfCid comps cid).map fun c => c ++ "." ++ pname
  | none => if p ∈ auxParams conf comps then some (conf.auxName p) else none

/-- `ParamSetup` (model.py:2428-2444). -/
inductive Setup where
  | free | composite | fixed | forwarded | integrated
deriving DecidableEq, Repr

/-- A row of the displayed table: number (`''`, `'*'` or the running number), component, slot (model.py:2320-2355). -/
inductive Idx where
  | blank | star | num (n : Nat)
deriving DecidableEq, Repr

/-- Variables of the two loops, model.py:2266-2276. -/
structure Acc where
  n : Nat
  order : List Pid
  determ : List Pid
  setup : List ((Cid × PName) × Setup)
  /-- `(idx, component, parameter)` -/
  rows : List (Idx × String × String)

/-- Body of the loop over the slots, model.py:2280-2327. -/
def slotStep {K : Type} (conf : Conf K) (comps : List Comp) (acc : Acc) (s : Slot) : Except PyErr Acc :=
  let put (idx : Idx) (su : Setup) (acc : Acc) : Acc :=
    { acc with
      setup := acc.setup ++ [((s.cid, s.pname), su)]
      rows := acc.rows ++ [(idx, s.cname, s.pname)] }
  match compParam conf comps s.e.id with
  | none => .error .keyError
  | some owner =>
    if (s.cid, s.pname) ≠ owner then .ok (put .blank .forwarded acc)
    else if s.e.isComposite then
      if hasInterval conf s.e then .ok (put .blank .integrated acc)
      else if allFixed conf s.e then .ok (put .blank .fixed acc)
      else .ok (put .star .composite { acc with determ := acc.determ ++ [s.e.id] })
    else if conf.kind s.e.id = .interval then .ok (put .blank .integrated acc)
    else if conf.kind s.e.id = .fixed then .ok (put .blank .fixed acc)
    else .ok (put (.num (acc.n + 1)) .free { acc with n := acc.n + 1, order := acc.order ++ [s.e.id] })

/-- Body of the loop over auxiliary parameters, model.py:2329-2345. -/
def auxStep {K : Type} (conf : Conf K) (acc : Acc) (p : Pid) : Acc :=
  if conf.kind p = .free then
    { acc with n := acc.n + 1, order := acc.order ++ [p], rows := acc.rows ++ [(.num (acc.n + 1), "", conf.auxName p)] }
  else { acc with rows := acc.rows ++ [(.blank, "", conf.auxName p)] }

/-- `sample`, model.py:2221-2223: parameters with a distribution. -/
def sampleIds {K : Type} (conf : Conf K) (comps : List Comp) : List Pid :=
  ((paramsInfo comps).filter fun e => !e.isComposite && conf.kind e.id == .free).map PExpr.id

/-- `default`, model.py:2226-2228, as a partial function. -/
def sampleDefault {K : Type} (conf : Conf K) (comps : List Comp) (p : Pid) : Option K :=
  if p ∈ sampleIds conf comps then some (conf.default p) else none

/-- `fixed`, model.py:2207-2211, restricted to the non-composite parameters (the entries of fixed
composites hold NaN and are keyed by composite ids, which no leaf ever looks up). -/
def fixedIds {K : Type} (conf : Conf K) (comps : List Comp) : List Pid :=
  ((paramsInfo comps).filter fun e => !e.isComposite && conf.kind e.id == .fixed
    && (nameMapping conf comps e.id).isSome).map PExpr.id

/-- `fixed` as a partial function (model.py:2241-2262). -/
def fixedValue {K : Type} (conf : Conf K) (comps : List Comp) (p : Pid) : Option K :=
  if p ∈ fixedIds conf comps then some (conf.default p) else none

/-- The loops, model.py:2278-2345. -/
def collect {K : Type} (conf : Conf K) (comps : List Comp) : Except PyErr Acc :=
  match (slots comps).foldlM (slotStep conf comps) ⟨0, [], [], [], []⟩ with
  | .error e => .error e
  | .ok acc => .ok ((auxParams conf comps).foldl (auxStep conf) acc)

/-- `get_model_info`: the loops followed by the consistency check of model.py:2347-2350. -/
def modelInfo {K : Type} (conf : Conf K) (comps : List Comp) : Except PyErr Acc :=
  match collect conf comps with
  | .error e => .error e
  | .ok acc =>
    if acc.order.toFinset ≠ (sampleIds conf comps).toFinset then .error .runtimeError
    else .ok acc

/-! ## Value getters -/

/-- The closure `Parameter._id_to_value` (parameter.py:134-144 and 1023-1031): default values of the
leaves are local variables of the enclosing call, so they are captured. -/
inductive Clo (K : Type) where
  | leaf (id : Pid) (default : K)
  | bin (op : BinOp) (l r : Clo K)
  | call (f : String) (a : Clo K)

/-- Creating the closure (model.py:202-219). -/
def capture {K : Type} (default : Pid → K) : PExpr → Clo K
  | .leaf i => .leaf i (default i)
  | .bin _ op l r => .bin op (capture default l) (capture default r)
  | .call _ f a => .call f (capture default a)

/-- Calling the closure; `mapping.get(pid, default)` (parameter.py:135-145). -/
def Clo.run {K : Type} [Field K] (pw : K → K → K) (fn : String → K → K) (m : Pid → Option K) : Clo K → K
  | .leaf i d => (m i).getD d
  | .bin op l r => applyOp pw op (l.run pw fn m) (r.run pw fn m)
  | .call f a => fn f (a.run pw fn m)

/-- `a | b` of dictionaries: the right one wins (Python dictionaries, model.py:202-219). -/
def dictOr {K : Type} (a b : Pid → Option K) (p : Pid) : Option K := (b p).orElse fun _ => a p

/-- A compiled model: `params_id`, `fixed_id`, names of the parameters, captured values and the
value getter of every slot (`cid_to_params`) (model.py:306-347). -/
structure Compiled (K : Type) where
  paramsId : List Pid
  fixedId : List Pid
  name : Pid → String
  default : Pid → Option K
  fixed : Pid → Option K
  slots : List ((Cid × PName) × Clo K)

/-- `Model.compile`, model.py:92-138: the parameter ids are collected slot by slot, **without**
removing repetitions across slots (120-126). -/
def compile {K : Type} (conf : Conf K) (comps : List Comp) : Except PyErr (Compiled K) :=
  match modelInfo conf comps with
  | .error e => .error e
  | .ok _ => .ok
    { paramsId := ((slots comps).flatMap fun s => nodesId s.e).filter (· ∈ sampleIds conf comps)
      fixedId := ((slots comps).flatMap fun s => nodesId s.e).filter fun p =>
        p ∉ sampleIds conf comps ∧ p ∈ fixedIds conf comps
      name := fun p => (nameMapping conf comps p).getD ""
      default := sampleDefault conf comps
      fixed := fixedValue conf comps
      slots := (slots comps).map fun s => ((s.cid, s.pname), capture conf.default s.e) }

/-- `cid_to_params[cid](params)[pname]` for every slot: `factory2` and `factory1`,
model.py:2231-2259. The model value is a function of these. -/
def Compiled.slotValues {K : Type} [Field K] (pw : K → K → K) (fn : String → K → K) (c : Compiled K)
    (params : Pid → Option K) : List ((Cid × PName) × K) :=
  c.slots.map fun s => (s.1, s.2.run pw fn (dictOr c.fixed params))

/-- `{name[pid]: pid for pid in ids}` read back: the last id with that name (model.py:311-347). -/
def pidOfName {K : Type} (c : Compiled K) (ids : List Pid) (nm : String) : Option Pid :=
  ids.reverse.find? fun p => c.name p == nm

/-- `pname_to_pid | fixed_name_to_pid`, model.py:332-333. -/
def Compiled.lookup {K : Type} (c : Compiled K) (nm : String) : Option Pid :=
  (pidOfName c c.fixedId nm).orElse fun _ => pidOfName c c.paramsId nm

/-- `params_name`: keys of `pname_to_pid` in order of first insertion, model.py:321-324. -/
def Compiled.paramsName {K : Type} (c : Compiled K) : List String :=
  (c.paramsId.map c.name).reverse.dedup.reverse

/-- `dict(zip(ids, values))` read back: the last value given to the key (model.py:363-413). -/
def dictZip {K : Type} (ids : List Pid) (xs : List K) (p : Pid) : Option K :=
  ((ids.zip xs).reverse.find? fun q => q.1 == p).map Prod.snd

/-- `_prepare_eval` with a sequence, model.py:368-376: the length is compared with the number of
distinct names, then `zip(params_id, sequence, strict=True)`. -/
def prepareSeq {K : Type} (c : Compiled K) (xs : List K) : Except PyErr (Pid → Option K) :=
  if xs.length ≠ c.paramsName.length then .error .valueError
  else if c.paramsId.length ≠ xs.length then .error .valueError
  else .ok (dictZip c.paramsId xs)

/-- `_value_mapping_to_params`, model.py:334-340: `{v: mapping[k] for k, v in pname_pid_all.items()
if k in mapping}`. -/
def mapToParams {K : Type} (c : Compiled K) (m : List (String × K)) (p : Pid) : Option K :=
  if c.lookup (c.name p) = some p then m.lookup (c.name p) else none

/-- `_prepare_eval` with a mapping, model.py:378-384 and 397-399: an error when the model has free
parameters and no given name is known. -/
def prepareMap {K : Type} (c : Compiled K) (m : List (String × K)) : Except PyErr (Pid → Option K) :=
  if c.paramsName ≠ [] ∧ (∀ q ∈ m, c.lookup q.1 = none) then .error .valueError
  else .ok (mapToParams c m)

/-- `_prepare_eval(None)`, model.py:386-387. -/
def prepareDefault {K : Type} (c : Compiled K) : Pid → Option K := c.default

end Elisa.Models.Info
