import Verif.Models.InfoProps
import Verif.Models.TrackerProps

/-!
# C30, C33: values seen by a compiled model, positional and keyword evaluation
-/

namespace Elisa.Models.Info

open Elisa.Models.Label Elisa.Models.Track

/-! ## The well-formedness hypothesis holds for every program history -/

/-- After any history of component creation and parameter assignment that does not reuse memory
addresses, the hypothesis `WF.mirror` holds for the components read off the heap. -/
theorem C61_mirror_from_history {ops : List Op} {h : Heap} (hs : Steps Heap.init ops h) (hn : NoReuse ops)
    {K : Type} (conf : Conf K) (comps : List Comp) (hconf : conf.hist = h.hist)
    (hlive : ∀ comp ∈ comps, h.live comp.cid)
    (hread : ∀ c n p, c ∈ comps.map Comp.cid → (h.slot c n = some p ↔ ∃ e, Holds comps c n e ∧ e.id = p)) :
    ∀ p c n, c ∈ comps.map Comp.cid → ((c, n) ∈ conf.hist p ↔ ∃ e, Holds comps c n e ∧ e.id = p) := by
  intro p c n hc
  obtain ⟨comp, hm, rfl⟩ := List.mem_map.1 hc
  rw [hconf, ← hread _ n p hc]
  exact (C28_mirror_partial ops h hs hn p).1 comp.cid n (hlive comp hm)

/-! ## C30 -/

theorem capture_run {K : Type} [Field K] (pw : K → K → K) (fn : String → K → K) (default : Pid → K)
    (m : Pid → Option K) (e : PExpr) :
    (capture default e).run pw fn m = value pw fn (fun p => (m p).getD (default p)) e := by
  induction e with
  | leaf i => rfl
  | bin i o l r hl hr => simp only [capture, Clo.run, hl, hr, value]
  | call i f a ha => simp only [capture, Clo.run, ha, value]

theorem compile_ok {K : Type} {conf : Conf K} {comps : List Comp} {c : Compiled K}
    (h : compile conf comps = .ok c) :
    c.paramsId = ((slots comps).flatMap fun s => nodesId s.e).filter (· ∈ sampleIds conf comps) ∧
    c.fixedId = ((slots comps).flatMap fun s => nodesId s.e).filter (fun p =>
        p ∉ sampleIds conf comps ∧ p ∈ fixedIds conf comps) ∧
    c.name = (fun p => (nameMapping conf comps p).getD "") ∧
    c.default = sampleDefault conf comps ∧
    c.fixed = fixedValue conf comps ∧
    c.slots = (slots comps).map (fun s => ((s.cid, s.pname), capture conf.default s.e)) := by
  unfold compile at h
  split at h
  · cases h
  · cases h; exact ⟨rfl, rfl, rfl, rfl, rfl, rfl⟩

theorem dictOr_getD {K : Type} (conf : Conf K) (comps : List Comp) (m : Pid → Option K) (p : Pid) :
    (dictOr (fixedValue conf comps) m p).getD (conf.default p) = (m p).getD (conf.default p) := by
  unfold dictOr fixedValue
  cases m p with
  | some v => rfl
  | none => simp only [Option.orElse_eq_or, Option.none_or]; split_ifs <;> rfl

/-- What the model function receives in a slot is the parameter expression of the slot, applied to
the supplied leaf values and, for the leaves that are not supplied, to the default values they had
when the model was compiled. -/
theorem C30_slot_value {K : Type} [Field K] (pw : K → K → K) (fn : String → K → K) {conf : Conf K}
    {comps : List Comp} {c : Compiled K} (h : compile conf comps = .ok c) (m : Pid → Option K)
    {cid n e} (hh : Holds comps cid n e) (hw : WF conf comps) (v : K) :
    ((cid, n), v) ∈ c.slotValues pw fn m ↔ v = value pw fn (fun p => (m p).getD (conf.default p)) e := by
  obtain ⟨_, _, _, _, hf, hsl⟩ := compile_ok h
  simp only [Compiled.slotValues, hf, hsl, List.map_map, List.mem_map, Function.comp, Prod.mk.injEq]
  have hval : ∀ x : PExpr, (capture conf.default x).run pw fn (dictOr (fixedValue conf comps) m)
      = value pw fn (fun p => (m p).getD (conf.default p)) x := by
    intro x
    rw [capture_run]
    simp only [dictOr_getD]
  constructor
  · rintro ⟨s, hs, ⟨rfl, rfl⟩, rfl⟩
    rw [holds_unique hw hh (mem_slots hs), hval]
  · rintro rfl
    obtain ⟨s, hs, rfl, rfl, rfl⟩ := holds_slot hh
    exact ⟨s, hs, ⟨rfl, rfl⟩, hval _⟩

/-- A Python program working with models: the current parameter objects and component slots, and the
compiled models created so far. -/
structure World (K : Type) where
  conf : Conf K
  comps : List Comp
  compiled : List (Compiled K)

/-- Anything that can happen: parameters are mutated (`default`, `min`, `max`, `log`, `fixed`
setters), slots are re-assigned, components are created, a model is compiled. -/
inductive WStep {K : Type} (w : World K) : World K → Prop where
  | mutate (conf' : Conf K) (comps' : List Comp) : WStep w ⟨conf', comps', w.compiled⟩
  | compile {c : Compiled K} : compile w.conf w.comps = .ok c → WStep w ⟨w.conf, w.comps, w.compiled ++ [c]⟩

/-- Any number of steps. -/
inductive WSteps {K : Type} : World K → World K → Prop where
  | refl (w) : WSteps w w
  | tail {w w₁ w₂} : WSteps w w₁ → WStep w₁ w₂ → WSteps w w₂

/-- A compiled model keeps evaluating to the same values whatever happens to the parameters, slots
and components afterwards: its slot values are those of the state in which it was compiled. -/
theorem C30_mutation_independent {K : Type} [Field K] (pw : K → K → K) (fn : String → K → K)
    {w w' : World K} {c : Compiled K} (hc : compile w.conf w.comps = .ok c) (hw : WF w.conf w.comps)
    (hs : WSteps ⟨w.conf, w.comps, w.compiled ++ [c]⟩ w') :
    ∃ c', w'.compiled[w.compiled.length]? = some c' ∧ ∀ (m : Pid → Option K) cid n e,
      Holds w.comps cid n e → ∀ v, ((cid, n), v) ∈ c'.slotValues pw fn m ↔
        v = value pw fn (fun p => (m p).getD (w.conf.default p)) e := by
  refine ⟨c, ?_, fun m cid n e hh v => C30_slot_value pw fn hc m hh hw v⟩
  generalize hw0 : (⟨w.conf, w.comps, w.compiled ++ [c]⟩ : World K) = w0 at hs
  induction hs with
  | refl => subst hw0; simp
  | tail _ hst ih =>
    have := ih
    cases hst with
    | mutate => exact this
    | compile _ =>
      rw [List.getElem?_append_left]
      · exact this
      · exact (List.getElem?_eq_some_iff.1 this).1

/-! ## C33 -/

/-- Every free parameter sits in one slot only. -/
def NoSharing {K : Type} (conf : Conf K) (comps : List Comp) : Prop :=
  ∀ p, conf.kind p = .free → ∀ c n e c' n' e', Holds comps c n e → PartOf (.leaf p) e →
    Holds comps c' n' e' → PartOf (.leaf p) e' → (c, n) = (c', n')

/-- The parameters of the model have different names. -/
def NamesDistinct {K : Type} (conf : Conf K) (comps : List Comp) : Prop :=
  ∀ p q, (∃ c n e, Holds comps c n e ∧ PartOf (.leaf p) e) → (∃ c n e, Holds comps c n e ∧ PartOf (.leaf q) e) →
    nameMapping conf comps p = nameMapping conf comps q → p = q

theorem mem_fixedIds {K : Type} {conf : Conf K} {comps : List Comp} (hw : WF conf comps) {p : Pid} :
    p ∈ fixedIds conf comps ↔ conf.kind p = .fixed ∧ ∃ c n e, Holds comps c n e ∧ PartOf (.leaf p) e := by
  simp only [fixedIds, List.mem_map, List.mem_filter, mem_paramsInfo hw]
  constructor
  · rintro ⟨x, ⟨hx, hc⟩, rfl⟩
    cases x with
    | leaf i =>
      simp only [PExpr.isComposite, Bool.not_false, Bool.true_and, Bool.and_eq_true, beq_iff_eq] at hc
      exact ⟨hc.1, hx⟩
    | bin => simp [PExpr.isComposite] at hc
    | call => simp [PExpr.isComposite] at hc
  · rintro ⟨hk, c, n, e, hh, hp⟩
    refine ⟨.leaf p, ⟨⟨c, n, e, hh, hp⟩, ?_⟩, rfl⟩
    have := (C61_named hw hh).1 p hp
    simp [PExpr.isComposite, PExpr.id, hk, this]

theorem mem_paramsId {K : Type} {conf : Conf K} {comps : List Comp} (hw : WF conf comps) {c : Compiled K}
    (h : compile conf comps = .ok c) {p : Pid} : p ∈ c.paramsId ↔ FreeIn conf comps p := by
  rw [(compile_ok h).1]
  simp only [List.mem_filter, List.mem_flatMap, decide_eq_true_eq, mem_sampleIds hw, mem_nodesId]
  constructor
  · exact fun h => h.2
  · intro hf
    obtain ⟨_, c', n, e, hh, hp⟩ := id hf
    obtain ⟨s, hs, rfl, rfl, rfl⟩ := holds_slot hh
    exact ⟨⟨s, hs, hp⟩, hf⟩

theorem mem_fixedId {K : Type} {conf : Conf K} {comps : List Comp} (hw : WF conf comps) {c : Compiled K}
    (h : compile conf comps = .ok c) {p : Pid} :
    p ∈ c.fixedId ↔ conf.kind p = .fixed ∧ ∃ c n e, Holds comps c n e ∧ PartOf (.leaf p) e := by
  rw [(compile_ok h).2.1]
  simp only [List.mem_filter, List.mem_flatMap, decide_eq_true_eq, mem_sampleIds hw, mem_nodesId,
    mem_fixedIds hw]
  constructor
  · exact fun h => h.2.2
  · rintro ⟨hk, c', n, e, hh, hp⟩
    obtain ⟨s, hs, rfl, rfl, rfl⟩ := holds_slot hh
    refine ⟨⟨s, hs, hp⟩, ?_, hk, _, _, _, hh, hp⟩
    rintro ⟨hk', _⟩
    rw [hk] at hk'; cases hk'

theorem nodesId_nodup (e : PExpr) : (nodesId e).Nodup := by
  simp [nodesId, List.nodup_dedup]

theorem paramsId_nodup {K : Type} {conf : Conf K} {comps : List Comp} (hw : WF conf comps)
    {c : Compiled K} (h : compile conf comps = .ok c) : c.paramsId.Nodup ↔ NoSharing conf comps := by
  rw [(compile_ok h).1, List.filter_flatMap, List.nodup_flatMap]
  have hsl : (slots comps).Nodup := List.Nodup.of_map _ (slots_nodup hw)
  constructor
  · rintro ⟨_, hp⟩ p hk c1 n1 e1 c2 n2 e2 h1 hp1 h2 hp2
    obtain ⟨s, hs, rfl, rfl, rfl⟩ := holds_slot h1
    obtain ⟨t, ht, rfl, rfl, rfl⟩ := holds_slot h2
    by_contra hne
    have hst : s ≠ t := fun e => hne (by rw [e])
    have : Std.Symm (Function.onFun List.Disjoint
        fun a : Slot => (nodesId a.e).filter fun x => decide (x ∈ sampleIds conf comps)) :=
      ⟨fun _ _ hd => List.Disjoint.symm hd⟩
    have := hp.forall hs ht hst
    have hf : FreeIn conf comps p := ⟨hk, _, _, _, h1, hp1⟩
    refine this (a := p) ?_ ?_ <;>
      simp [List.mem_filter, mem_nodesId, mem_sampleIds hw, hp1, hp2, hf]
  · intro hns
    refine ⟨fun s _ => (nodesId_nodup s.e).filter _, ?_⟩
    refine List.Nodup.pairwise_of_forall_ne hsl ?_
    intro s hs t ht hst p hps hpt
    simp only [List.mem_filter, mem_nodesId, decide_eq_true_eq, mem_sampleIds hw] at hps hpt
    have := hns p hps.2.1 _ _ _ _ _ _ (mem_slots hs) hps.1 (mem_slots ht) hpt.1
    exact hst (List.inj_on_of_nodup_map (slots_nodup hw) hs ht this)

theorem name_inj {K : Type} {conf : Conf K} {comps : List Comp} (hw : WF conf comps) {c : Compiled K}
    (h : compile conf comps = .ok c) (hd : NamesDistinct conf comps) {p q : Pid}
    (hp : ∃ c n e, Holds comps c n e ∧ PartOf (.leaf p) e)
    (hq : ∃ c n e, Holds comps c n e ∧ PartOf (.leaf q) e) (he : c.name p = c.name q) : p = q := by
  rw [(compile_ok h).2.2.1] at he
  obtain ⟨c1, n1, e1, h1, hp1⟩ := id hp
  obtain ⟨c2, n2, e2, h2, hp2⟩ := id hq
  obtain ⟨x, hx⟩ := Option.isSome_iff_exists.1 ((C61_named hw h1).1 p hp1)
  obtain ⟨y, hy⟩ := Option.isSome_iff_exists.1 ((C61_named hw h2).1 q hp2)
  simp only [hx, hy, Option.getD_some] at he
  exact hd p q hp hq (by rw [hx, hy, he])

theorem pidOfName_some {K : Type} {c : Compiled K} {ids : List Pid} {nm : String} {p : Pid}
    (h : pidOfName c ids nm = some p) : p ∈ ids ∧ c.name p = nm := by
  have h1 := List.mem_of_find?_eq_some h
  have h2 := List.find?_some h
  exact ⟨by simpa using h1, by simpa using h2⟩

theorem pidOfName_mem {K : Type} {c : Compiled K} {ids : List Pid} {p : Pid} (hp : p ∈ ids)
    (hinj : ∀ q ∈ ids, c.name q = c.name p → q = p) : pidOfName c ids (c.name p) = some p := by
  cases hf : pidOfName c ids (c.name p) with
  | none =>
    unfold pidOfName at hf
    rw [List.find?_eq_none] at hf
    exact absurd (by simp) (hf p (by simpa using hp))
  | some q =>
    obtain ⟨h1, h2⟩ := pidOfName_some hf
    rw [hinj q h1 h2]

theorem lookup_name {K : Type} {conf : Conf K} {comps : List Comp} (hw : WF conf comps) {c : Compiled K}
    (h : compile conf comps = .ok c) (hd : NamesDistinct conf comps) (p : Pid) :
    c.lookup (c.name p) = some p ↔ p ∈ c.paramsId ∨ p ∈ c.fixedId := by
  have hin : ∀ q, q ∈ c.paramsId ∨ q ∈ c.fixedId → ∃ c n e, Holds comps c n e ∧ PartOf (.leaf q) e := by
    rintro q (hq | hq)
    · exact ((mem_paramsId hw h).1 hq).2
    · exact ((mem_fixedId hw h).1 hq).2
  unfold Compiled.lookup
  constructor
  · intro hl
    cases hf : pidOfName c c.fixedId (c.name p) with
    | some q =>
      rw [hf] at hl
      have hqp : q = p := by simpa using hl
      subst hqp
      exact Or.inr (pidOfName_some hf).1
    | none =>
      rw [hf] at hl
      exact Or.inl (pidOfName_some (by simpa using hl)).1
  · intro hp
    cases hf : pidOfName c c.fixedId (c.name p) with
    | some q =>
      obtain ⟨h1, h2⟩ := pidOfName_some hf
      have : q = p := name_inj hw h hd (hin q (Or.inr h1)) (hin p hp) h2
      simp [this]
    | none =>
      have hpp : p ∈ c.paramsId := by
        rcases hp with hp | hp
        · exact hp
        · unfold pidOfName at hf
          rw [List.find?_eq_none] at hf
          exact absurd (by simp) (hf p (by simpa using hp))
      have := pidOfName_mem hpp (fun q hq e => name_inj hw h hd (hin q (Or.inl hq)) (hin p hp) e)
      simp [this]

theorem dictZip_none {K : Type} {ids : List Pid} {xs : List K} {p : Pid} (h : p ∉ ids) :
    dictZip ids xs p = none := by
  unfold dictZip
  rw [Option.map_eq_none_iff, List.find?_eq_none]
  intro q hq
  have := List.of_mem_zip (List.mem_reverse.1 hq)
  simp only [beq_iff_eq]
  rintro rfl
  exact h this.1

theorem find_zip_eq_lookup {K : Type} {ids : List Pid} (hnd : ids.Nodup) (nm : Pid → String)
    (hinj : ∀ p ∈ ids, ∀ q ∈ ids, nm p = nm q → p = q) (xs : List K) (hl : ids.length = xs.length) {p : Pid}
    (hp : p ∈ ids) : dictZip ids xs p = ((ids.map nm).zip xs).lookup (nm p) := by
  induction ids generalizing xs with
  | nil => simp at hp
  | cons a ids ih =>
    cases xs with
    | nil => simp at hl
    | cons x xs =>
      rw [List.nodup_cons] at hnd
      simp only [List.length_cons, Nat.add_right_cancel_iff] at hl
      simp only [List.map_cons, List.zip_cons_cons, List.lookup_cons]
      rcases List.mem_cons.1 hp with rfl | hp'
      · simp only [beq_self_eq_true]
        have hnone : (ids.zip xs).reverse.find? (fun q => q.1 == p) = none := by
          have := dictZip_none (xs := xs) hnd.1
          unfold dictZip at this
          simpa using this
        simp [dictZip, List.find?_append, hnone]
      · have hpa : p ≠ a := fun e => hnd.1 (e ▸ hp')
        have hna : nm p ≠ nm a := fun e => hpa (hinj p hp a (by simp) e)
        have ih' := ih hnd.2 (fun u hu v hv => hinj u (by simp [hu]) v (by simp [hv])) xs hl hp'
        have hbeq : (nm p == nm a) = false := by simpa using hna
        rw [hbeq]
        rw [← ih']
        simp only [dictZip, List.zip_cons_cons, List.reverse_cons, List.find?_append]
        cases hfind : List.find? (fun q => q.1 == p) (ids.zip xs).reverse with
        | some q => simp
        | none => simp [Ne.symm hpa]

theorem paramsName_eq {K : Type} {c : Compiled K} (hnd : (c.paramsId.map c.name).Nodup) :
    c.paramsName = c.paramsId.map c.name := by
  unfold Compiled.paramsName
  rw [List.dedup_eq_self.2 (List.nodup_reverse.2 hnd), List.reverse_reverse]

theorem paramsId_nil_iff {K : Type} (c : Compiled K) : c.paramsName = [] ↔ c.paramsId = [] := by
  simp [Compiled.paramsName, List.dedup_eq_nil]

theorem lookup_none_of_notMem {K : Type} {l : List (String × K)} {k : String} (h : ∀ q ∈ l, q.1 ≠ k) :
    l.lookup k = none := by
  induction l with
  | nil => rfl
  | cons a l ih =>
    have h1 := h a (by simp)
    have : (k == a.1) = false := by simpa using (Ne.symm h1)
    rw [List.lookup_cons, this]
    exact ih fun q hq => h q (by simp [hq])

/-- Without sharing and with distinct names: a sequence of values in the order of `params_name` and
the mapping of those names to those values reach the model function as the same parameters.
(Missing: models in which a free parameter feeds several slots, see `C33_shared_refuted`.) -/
theorem C33_positional_keyword_partial {K : Type} {conf : Conf K} {comps : List Comp} (hw : WF conf comps)
    {c : Compiled K} (h : compile conf comps = .ok c) (hns : NoSharing conf comps)
    (hd : NamesDistinct conf comps) (xs : List K) (hl : xs.length = c.paramsName.length) :
    ∃ m, prepareSeq c xs = .ok m ∧ prepareMap c (c.paramsName.zip xs) = .ok m := by
  have hnd := (paramsId_nodup hw h).2 hns
  have hin : ∀ q, q ∈ c.paramsId → ∃ c n e, Holds comps c n e ∧ PartOf (.leaf q) e :=
    fun q hq => ((mem_paramsId hw h).1 hq).2
  have hinj : ∀ p ∈ c.paramsId, ∀ q ∈ c.paramsId, c.name p = c.name q → p = q :=
    fun p hp q hq he => name_inj hw h hd (hin p hp) (hin q hq) he
  have hnames : (c.paramsId.map c.name).Nodup := hnd.map_on hinj
  have hpn := paramsName_eq hnames
  have hlen : c.paramsId.length = xs.length := by rw [hl, hpn, List.length_map]
  refine ⟨dictZip c.paramsId xs, ?_, ?_⟩
  · rw [prepareSeq, if_neg (by simp [hl]), if_neg (by simp [hlen])]
  · rw [prepareMap, if_neg]
    · congr 1
      funext p
      unfold mapToParams
      by_cases hp : p ∈ c.paramsId
      · rw [if_pos ((lookup_name hw h hd p).2 (Or.inl hp)), hpn,
          find_zip_eq_lookup hnd c.name hinj xs hlen hp]
      · rw [dictZip_none hp]
        split_ifs with hlk
        · rcases (lookup_name hw h hd p).1 hlk with hp' | hp'
          · exact absurd hp' hp
          · apply lookup_none_of_notMem
            intro q hq
            have := (List.of_mem_zip hq).1
            rw [hpn, List.mem_map] at this
            obtain ⟨r, hr, hrq⟩ := this
            rw [← hrq]
            intro he
            have : r = p := name_inj hw h hd (hin r hr) ((mem_fixedId hw h).1 hp').2 he
            exact hp (this ▸ hr)
        · rfl
    · rintro ⟨hne, hall⟩
      have hne' : c.paramsId ≠ [] := fun e => hne ((paramsId_nil_iff c).2 e)
      obtain ⟨p, hp⟩ := List.exists_mem_of_ne_nil _ hne'
      have hlk := (lookup_name hw h hd p).2 (Or.inl hp)
      obtain ⟨i, hi, hpi⟩ := List.mem_iff_getElem.1 hp
      have hmem : (c.name p, xs[i]'(by omega)) ∈ c.paramsName.zip xs := by
        rw [hpn]
        rw [List.mem_iff_getElem]
        refine ⟨i, by simp; omega, by simp [hpi]⟩
      rw [hall _ hmem] at hlk
      cases hlk

/-- With distinct names, a mapping assigns exactly the named parameters (free or fixed); unknown
names are ignored and parameters that are not named keep the value they had at compile time. -/
theorem C33_mapping {K : Type} [Field K] (pw : K → K → K) (fn : String → K → K) {conf : Conf K}
    {comps : List Comp} (hw : WF conf comps) {c : Compiled K} (h : compile conf comps = .ok c)
    (hd : NamesDistinct conf comps) (m : List (String × K)) {ps : Pid → Option K}
    (hm : prepareMap c m = .ok ps) {cid n e} (hh : Holds comps cid n e)
    (hi : ∀ p, PartOf (.leaf p) e → conf.kind p ≠ .interval) (v : K) :
    ((cid, n), v) ∈ c.slotValues pw fn ps ↔
      v = value pw fn (fun p => (m.lookup (c.name p)).getD (conf.default p)) e := by
  rw [C30_slot_value pw fn h ps hh hw]
  have hps : ps = mapToParams c m := by
    unfold prepareMap at hm
    split_ifs at hm
    exact (Except.ok.inj hm).symm
  have hsub : ∀ x : PExpr, (∀ p, PartOf (.leaf p) x → PartOf (.leaf p) e) →
      value pw fn (fun p => (ps p).getD (conf.default p)) x =
      value pw fn (fun p => (m.lookup (c.name p)).getD (conf.default p)) x := by
    intro x
    induction x with
    | leaf p =>
      intro hx
      have hp := hx p (.self _)
      have : p ∈ c.paramsId ∨ p ∈ c.fixedId := by
        cases hk : conf.kind p with
        | free => exact Or.inl ((mem_paramsId hw h).2 ⟨hk, _, _, _, hh, hp⟩)
        | fixed => exact Or.inr ((mem_fixedId hw h).2 ⟨hk, _, _, _, hh, hp⟩)
        | interval => exact absurd hk (hi p hp)
      simp only [value, hps, mapToParams]
      rw [if_pos ((lookup_name hw h hd p).2 this)]
    | bin i o l r hl hr =>
      intro hx
      simp only [value]
      rw [hl fun p hp => hx p (.lhs hp), hr fun p hp => hx p (.rhs hp)]
    | call i f a ha =>
      intro hx
      simp only [value]
      rw [ha fun p hp => hx p (.arg hp)]
  rw [hsub e fun _ h => h]

/-- Without arguments the model is evaluated at the defaults of compile time. -/
theorem C33_default {K : Type} [Field K] (pw : K → K → K) (fn : String → K → K) {conf : Conf K}
    {comps : List Comp} (hw : WF conf comps) {c : Compiled K} (h : compile conf comps = .ok c)
    {cid n e} (hh : Holds comps cid n e) (v : K) :
    ((cid, n), v) ∈ c.slotValues pw fn (prepareDefault c) ↔ v = value pw fn conf.default e := by
  rw [C30_slot_value pw fn h _ hh hw]
  have : (fun p => (prepareDefault c p).getD (conf.default p)) = conf.default := by
    funext p
    simp only [prepareDefault, (compile_ok h).2.2.2.1, sampleDefault]
    split_ifs <;> rfl
  rw [this]

/-- If a free parameter feeds two slots, **every** positional evaluation raises, although the names
listed in `params_name` are the right arguments: the length is checked against the distinct names
while the values are zipped strictly with the repeated ids. -/
theorem C33_shared_refuted {K : Type} {conf : Conf K} {comps : List Comp} (hw : WF conf comps)
    {c : Compiled K} (h : compile conf comps = .ok c) (hns : ¬ NoSharing conf comps) (xs : List K) :
    prepareSeq c xs = .error .valueError := by
  have hnd : ¬ c.paramsId.Nodup := fun hn => hns ((paramsId_nodup hw h).1 hn)
  have hlt : c.paramsName.length < c.paramsId.length := by
    have hsub := List.dedup_sublist (c.paramsId.map c.name).reverse
    have hle := hsub.length_le
    simp only [List.length_reverse, List.length_map] at hle
    rcases Nat.lt_or_ge (c.paramsId.map c.name).reverse.dedup.length c.paramsId.length with hlt | hge
    · simpa [Compiled.paramsName] using hlt
    · exfalso
      have heq := hsub.eq_of_length_le (by simpa using hge)
      have : (c.paramsId.map c.name).Nodup := List.nodup_reverse.1 (List.dedup_eq_self.1 heq)
      exact hnd (List.Nodup.of_map _ this)
  unfold prepareSeq
  split_ifs with h1 h2
  · rfl
  · rfl
  · omega

/-! ## Concrete models meeting the hypotheses -/

/-- Trackers that record each slot in order. -/
def histOf (comps : List Comp) (p : Pid) : List (Cid × PName) :=
  ((slots comps).filter fun s => s.e.id == p).map fun s => (s.cid, s.pname)

theorem wf_of {K : Type} {conf : Conf K} {comps : List Comp} (hc : (comps.map Comp.cid).Nodup)
    (hp : ∀ c ∈ comps, (c.params.map Prod.fst).Nodup)
    (hs : ∀ s ∈ slots comps, ∀ t ∈ slots comps, ∀ x ∈ s.e.nodes, ∀ y ∈ t.e.nodes, x.id = y.id → x = y)
    (hh : conf.hist = histOf comps) : WF conf comps := by
  refine ⟨hc, hp, ?_, ?_⟩
  · intro c₁ n₁ e₁ c₂ n₂ e₂ x y h1 h2 hx hy he
    obtain ⟨s, hs1, rfl, rfl, rfl⟩ := holds_slot h1
    obtain ⟨t, ht1, rfl, rfl, rfl⟩ := holds_slot h2
    exact hs s hs1 t ht1 x (mem_nodes.2 hx) y (mem_nodes.2 hy) he
  · intro p c n _
    simp only [hh, histOf, List.mem_map, List.mem_filter, beq_iff_eq, Prod.mk.injEq]
    constructor
    · rintro ⟨s, ⟨hs1, he⟩, rfl, rfl⟩
      exact ⟨s.e, mem_slots hs1, he⟩
    · rintro ⟨e, hh, rfl⟩
      obtain ⟨s, hs1, rfl, rfl, rfl⟩ := holds_slot hh
      exact ⟨s, ⟨hs1, rfl⟩, rfl, rfl⟩

/-- `PowerLaw(alpha=a, K=k1) + PowerLaw(alpha=a, K=k1*f)` with `a`, `k1` free and `f` a constant. -/
def demo : List Comp :=
  [⟨100, "PowerLaw", [("alpha", .leaf 1), ("K", .leaf 2)]⟩,
   ⟨200, "PowerLaw2", [("alpha", .leaf 1), ("K", .bin 4 .mul (.leaf 2) (.leaf 3))]⟩]

def demoConf : Conf ℚ where
  kind p := if p = 3 then .fixed else .free
  default p := p
  auxName _ := "f"
  hist := histOf demo

/-- Two power laws without anything shared, the second with a tied normalisation `g*f`. -/
def demo2 : List Comp :=
  [⟨100, "PowerLaw", [("alpha", .leaf 1), ("K", .leaf 2)]⟩,
   ⟨200, "PowerLaw2", [("alpha", .leaf 5), ("K", .bin 4 .mul (.leaf 6) (.leaf 3))]⟩]

def demoConf2 : Conf ℚ where
  kind p := if p = 3 then .fixed else .free
  default p := p
  auxName p := if p = 3 then "f" else "g"
  hist := histOf demo2

theorem demo_wf : WF demoConf demo := wf_of (by decide) (by decide) (by decide) rfl
theorem demo2_wf : WF demoConf2 demo2 := wf_of (by decide) (by decide) (by decide) rfl

example : ∃ acc, modelInfo demoConf demo = .ok acc ∧ acc.order = [1, 2] ∧
    acc.setup = [((100, "alpha"), .free), ((100, "K"), .free), ((200, "alpha"), .forwarded),
      ((200, "K"), .composite)] := ⟨_, rfl, rfl, rfl⟩

example : ∃ acc, modelInfo demoConf2 demo2 = .ok acc ∧ acc.order = [1, 2, 5, 6] ∧
    numbers acc.rows = [1, 2, 3, 4] := ⟨_, rfl, rfl, rfl⟩

/-- `demo` shares, so no positional evaluation is possible, while a mapping works. -/
example : ∃ c, compile demoConf demo = .ok c ∧ c.paramsName = ["PowerLaw.alpha", "PowerLaw.K"] ∧
    (∀ xs, prepareSeq c xs = .error .valueError) ∧
    (∃ ps, prepareMap c [("PowerLaw.alpha", 2), ("PowerLaw.K", 7)] = .ok ps) := by
  refine ⟨_, rfl, by decide +kernel, ?_, ⟨_, rfl⟩⟩
  refine C33_shared_refuted demo_wf rfl ?_
  intro h
  have := h 1 rfl 100 "alpha" (.leaf 1) 200 "alpha" (.leaf 1) ⟨_, List.mem_cons_self, rfl, by simp⟩ (.self _)
    ⟨_, List.mem_cons_of_mem _ (List.mem_cons_self), rfl, by simp⟩ (.self _)
  simp at this

/-- `demo2` meets the hypotheses of `C33_positional_keyword_partial`. -/
theorem demo2_noSharing : NoSharing demoConf2 demo2 := by
  have hc : ∃ c, compile demoConf2 demo2 = .ok c ∧ c.paramsId.Nodup := ⟨_, rfl, by decide +kernel⟩
  obtain ⟨c, h, hn⟩ := hc
  exact (paramsId_nodup demo2_wf h).1 hn

theorem demo2_leaf {p : Pid} (h : ∃ c n e, Holds demo2 c n e ∧ PartOf (.leaf p) e) :
    p = 1 ∨ p = 2 ∨ p = 5 ∨ p = 6 ∨ p = 3 := by
  obtain ⟨c, n, e, hh, hp⟩ := h
  obtain ⟨s, hs, rfl, rfl, rfl⟩ := holds_slot hh
  rw [← mem_leaves] at hp
  have : p ∈ (slots demo2).flatMap fun s => s.e.leaves := List.mem_flatMap.2 ⟨s, hs, hp⟩
  have e : ((slots demo2).flatMap fun s => s.e.leaves) = [1, 2, 5, 6, 3] := by decide
  rw [e] at this
  simpa using this

theorem demo2_names : NamesDistinct demoConf2 demo2 := by
  intro p q hp hq
  rcases demo2_leaf hp with rfl | rfl | rfl | rfl | rfl <;>
    rcases demo2_leaf hq with rfl | rfl | rfl | rfl | rfl <;> decide +kernel

example : ∃ c, compile demoConf2 demo2 = .ok c ∧
    c.paramsName = ["PowerLaw.alpha", "PowerLaw.K", "PowerLaw2.alpha", "g"] ∧
    ∃ m, prepareSeq c [1, 2, 3, 4] = .ok m ∧ prepareMap c (c.paramsName.zip [1, 2, 3, 4]) = .ok m := by
  refine ⟨_, rfl, by decide +kernel, ?_⟩
  exact C33_positional_keyword_partial demo2_wf rfl demo2_noSharing demo2_names _ (by decide +kernel)

/-- `demo2` compiles, and the theorems on slot values apply to its linked slot -/
example : ∃ c, compile demoConf2 demo2 = .ok c ∧ (∀ v, ((200, "K"), v) ∈ c.slotValues (fun a _ => a) (fun _ a => a) (prepareDefault c) ↔ v = 18) ∧
    ∃ ps, prepareMap c [("PowerLaw.K", 7)] = .ok ps ∧ ∀ v, ((100, "K"), v) ∈ c.slotValues (fun a _ => a) (fun _ a => a) ps ↔ v = 7 := by
  have hh : Holds demo2 200 "K" (.bin 4 .mul (.leaf 6) (.leaf 3)) := ⟨_, List.mem_cons_of_mem _ (List.mem_singleton_self _), rfl, by simp⟩
  have hh' : Holds demo2 100 "K" (.leaf 2) := ⟨_, List.mem_cons_self, rfl, by simp⟩
  refine ⟨_, rfl, fun v => ?_, _, rfl, fun v => ?_⟩
  · rw [C33_default _ _ demo2_wf rfl hh v]
    norm_num [value, demoConf2, applyOp]
  · rw [C33_mapping _ _ demo2_wf rfl demo2_names [("PowerLaw.K", 7)] rfl hh' (by
      intro p hp
      unfold demoConf2
      dsimp only
      split_ifs <;> simp) v]
    exact Iff.rfl

end Elisa.Models.Info
