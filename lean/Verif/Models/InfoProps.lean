import Verif.Models.Info

/-!
# C30, C33, C61: parameter collection and evaluation of a compiled model
-/

namespace Elisa.Models.Info

open Elisa.Models.Label Elisa.Models.Track

/-! ## Specification -/

/-- Slot `(c, n)` of the model holds the parameter `e`. -/
def Holds (comps : List Comp) (c : Cid) (n : PName) (e : PExpr) : Prop :=
  ∃ comp ∈ comps, comp.cid = c ∧ (n, e) ∈ comp.params

/-- `x` is one of the parameters `e` is built from (or `e` itself). -/
inductive PartOf : PExpr → PExpr → Prop where
  | self (e) : PartOf e e
  | lhs {x i o l r} : PartOf x l → PartOf x (.bin i o l r)
  | rhs {x i o l r} : PartOf x r → PartOf x (.bin i o l r)
  | arg {x i f a} : PartOf x a → PartOf x (.call i f a)

/-- What the Python objects guarantee: components are listed once, slots of a component have
distinct names, equal ids are the same parameter object, and the trackers record exactly the slots
that hold the parameter (`C28_mirror_partial`). -/
structure WF {K : Type} (conf : Conf K) (comps : List Comp) : Prop where
  cids : (comps.map Comp.cid).Nodup
  pnames : ∀ c ∈ comps, (c.params.map Prod.fst).Nodup
  same : ∀ c₁ n₁ e₁ c₂ n₂ e₂ x y, Holds comps c₁ n₁ e₁ → Holds comps c₂ n₂ e₂ →
    PartOf x e₁ → PartOf y e₂ → x.id = y.id → x = y
  mirror : ∀ p c n, c ∈ comps.map Comp.cid →
    ((c, n) ∈ conf.hist p ↔ ∃ e, Holds comps c n e ∧ e.id = p)

/-- `p` is a free parameter the model depends on. -/
def FreeIn {K : Type} (conf : Conf K) (comps : List Comp) (p : Pid) : Prop :=
  conf.kind p = .free ∧ ∃ c n e, Holds comps c n e ∧ PartOf (.leaf p) e

/-! ## Auxiliary facts -/

theorem mem_nodes {x e : PExpr} : x ∈ e.nodes ↔ PartOf x e := by
  constructor
  · induction e with
    | leaf i => simp only [PExpr.nodes, List.mem_singleton]; rintro rfl; exact .self _
    | bin i o l r hl hr =>
      simp only [PExpr.nodes, List.mem_cons, List.mem_append]
      rintro (rfl | h | h)
      · exact .self _
      · exact .lhs (hl h)
      · exact .rhs (hr h)
    | call i f a ha =>
      simp only [PExpr.nodes, List.mem_cons]
      rintro (rfl | h)
      · exact .self _
      · exact .arg (ha h)
  · intro h
    induction h with
    | self => cases x <;> simp [PExpr.nodes]
    | lhs _ ih => simp [PExpr.nodes, ih]
    | rhs _ ih => simp [PExpr.nodes, ih]
    | arg _ ih => simp [PExpr.nodes, ih]

theorem mem_leaves {p : Pid} {e : PExpr} : p ∈ e.leaves ↔ PartOf (.leaf p) e := by
  rw [← mem_nodes]
  induction e with
  | leaf i => simp [PExpr.leaves, PExpr.nodes]
  | bin i o l r hl hr => simp [PExpr.leaves, PExpr.nodes, hl, hr]
  | call i f a ha => simp [PExpr.leaves, PExpr.nodes, ha]

theorem mem_nodesId {p : Pid} {e : PExpr} : p ∈ nodesId e ↔ PartOf (.leaf p) e := by
  simp [nodesId, mem_leaves]

theorem mem_slots {comps : List Comp} {s : Slot} :
    s ∈ slots comps → Holds comps s.cid s.pname s.e := by
  simp only [slots, List.mem_flatMap, List.mem_map]
  rintro ⟨c, hc, q, hq, rfl⟩
  exact ⟨c, hc, rfl, hq⟩

theorem holds_slot {comps : List Comp} {c n e} (h : Holds comps c n e) :
    ∃ s ∈ slots comps, s.cid = c ∧ s.pname = n ∧ s.e = e := by
  obtain ⟨comp, hc, rfl, hp⟩ := h
  refine ⟨⟨comp.cid, comp.name, n, e⟩, ?_, rfl, rfl, rfl⟩
  simp only [slots, List.mem_flatMap, List.mem_map]
  exact ⟨comp, hc, (n, e), hp, rfl⟩

theorem holds_cid {comps : List Comp} {c n e} (h : Holds comps c n e) : c ∈ comps.map Comp.cid := by
  obtain ⟨comp, hc, rfl, hp⟩ := h
  exact List.mem_map_of_mem hc

theorem mem_dedupId_sub {x : PExpr} {l : List PExpr} (h : x ∈ dedupId l) : x ∈ l := by
  induction l with
  | nil => simp [dedupId] at h
  | cons a l ih =>
    simp only [dedupId, List.mem_cons, List.mem_filter] at h
    rcases h with rfl | ⟨h, _⟩
    · simp
    · simp [ih h]

theorem exists_mem_dedupId {x : PExpr} {l : List PExpr} (h : x ∈ l) : ∃ y ∈ dedupId l, y.id = x.id := by
  induction l with
  | nil => simp at h
  | cons a l ih =>
    by_cases hx : x.id = a.id
    · exact ⟨a, by simp [dedupId], hx.symm⟩
    · have : x ∈ l := by
        rcases List.mem_cons.1 h with rfl | h
        · exact absurd rfl hx
        · exact h
      obtain ⟨y, hy, he⟩ := ih this
      refine ⟨y, ?_, he⟩
      simp only [dedupId, List.mem_cons, List.mem_filter]
      exact Or.inr ⟨hy, by simp [he, hx]⟩

theorem dedupId_nodup (l : List PExpr) : ((dedupId l).map PExpr.id).Nodup := by
  induction l with
  | nil => simp [dedupId]
  | cons a l ih =>
    simp only [dedupId, List.map_cons, List.nodup_cons]
    refine ⟨?_, ?_⟩
    · simp only [List.mem_map, List.mem_filter]
      rintro ⟨y, ⟨_, hy⟩, he⟩
      simp [he] at hy
    · exact ih.sublist (List.filter_sublist.map _)

theorem mem_paramsInfo {K : Type} {conf : Conf K} {comps : List Comp} (hw : WF conf comps) {x : PExpr} :
    x ∈ paramsInfo comps ↔ ∃ c n e, Holds comps c n e ∧ PartOf x e := by
  constructor
  · intro h
    obtain ⟨s, hs, hx⟩ := List.mem_flatMap.1 (mem_dedupId_sub h)
    exact ⟨_, _, _, mem_slots hs, mem_nodes.1 hx⟩
  · rintro ⟨c, n, e, hh, hp⟩
    obtain ⟨s, hs, rfl, rfl, rfl⟩ := holds_slot hh
    have : x ∈ (slots comps).flatMap fun s => s.e.nodes :=
      List.mem_flatMap.2 ⟨s, hs, mem_nodes.2 hp⟩
    obtain ⟨y, hy, he⟩ := exists_mem_dedupId this
    obtain ⟨s', hs', hx'⟩ := List.mem_flatMap.1 (mem_dedupId_sub hy)
    have := hw.same _ _ _ _ _ _ y x (mem_slots hs') hh (mem_nodes.1 hx') hp he
    exact this ▸ hy

theorem compParam_some {K : Type} {conf : Conf K} {comps : List Comp} (hw : WF conf comps) {p c n}
    (h : compParam conf comps p = some (c, n)) : ∃ e, Holds comps c n e ∧ e.id = p := by
  unfold compParam getCompParam at h
  have h1 := List.find?_some h
  have h2 := List.mem_of_find?_eq_some h
  simp only [decide_eq_true_eq] at h1
  exact (hw.mirror p c n h1).1 h2

theorem compParam_isSome {K : Type} {conf : Conf K} {comps : List Comp} (hw : WF conf comps) {c n e}
    (h : Holds comps c n e) : ∃ r, compParam conf comps e.id = some r := by
  unfold compParam getCompParam
  have hm := (hw.mirror e.id c n (holds_cid h)).2 ⟨e, h, rfl⟩
  cases hf : List.find? (fun r : Cid × PName => decide (r.1 ∈ comps.map Comp.cid)) (conf.hist e.id) with
  | some r => exact ⟨r, rfl⟩
  | none =>
    rw [List.find?_eq_none] at hf
    exact absurd (by simpa using holds_cid h) (hf _ hm)

theorem holds_unique {K : Type} {conf : Conf K} {comps : List Comp} (hw : WF conf comps) {c n e e'}
    (h : Holds comps c n e) (h' : Holds comps c n e') : e = e' := by
  obtain ⟨k, hk, hc, hp⟩ := h
  obtain ⟨k', hk', hc', hp'⟩ := h'
  have : k = k' := List.inj_on_of_nodup_map hw.cids hk hk' (hc.trans hc'.symm)
  subst this
  have := List.inj_on_of_nodup_map (hw.pnames k hk) hp hp' rfl
  exact congrArg Prod.snd this

theorem slots_nodup {K : Type} {conf : Conf K} {comps : List Comp} (hw : WF conf comps) :
    ((slots comps).map fun s => (s.cid, s.pname)).Nodup := by
  have h1 := hw.cids
  have h2 := hw.pnames
  clear hw
  induction comps with
  | nil => simp [slots]
  | cons c cs ih =>
    have ih' := ih (List.nodup_cons.1 h1).2 (fun d hd => h2 d (by simp [hd]))
    simp only [slots, List.flatMap_cons, List.map_append, List.map_map] at ih' ⊢
    refine List.Nodup.append ?_ ih' ?_
    · have := h2 c (by simp)
      rw [show ((fun s : Slot => (s.cid, s.pname)) ∘ fun q : PName × PExpr => (⟨c.cid, c.name, q.1, q.2⟩ : Slot))
        = (fun n => (c.cid, n)) ∘ Prod.fst from rfl, ← List.map_map]
      exact this.map (fun a b h => (Prod.mk.inj h).2)
    · intro r hr hr'
      simp only [List.mem_map, Function.comp] at hr hr'
      obtain ⟨q, _, rfl⟩ := hr
      obtain ⟨s, hs, he⟩ := hr'
      simp only [List.mem_flatMap, List.mem_map] at hs
      obtain ⟨d, hd, q', _, rfl⟩ := hs
      simp only [Prod.mk.injEq] at he
      exact (List.nodup_cons.1 h1).1 (List.mem_map.2 ⟨d, hd, he.1⟩)

/-! ## The loops -/

/-- Classification of one slot. -/
def classify {K : Type} (conf : Conf K) (comps : List Comp) (s : Slot) : Setup :=
  if compParam conf comps s.e.id ≠ some (s.cid, s.pname) then .forwarded
  else if s.e.isComposite then
    if hasInterval conf s.e then .integrated else if allFixed conf s.e then .fixed else .composite
  else match conf.kind s.e.id with
    | .interval => .integrated
    | .fixed => .fixed
    | .free => .free

theorem slotStep_ok {K : Type} {conf : Conf K} {comps : List Comp} (hw : WF conf comps) {s : Slot}
    (hs : s ∈ slots comps) (acc : Acc) :
    ∃ acc', slotStep conf comps acc s = .ok acc' ∧
      acc'.setup = acc.setup ++ [((s.cid, s.pname), classify conf comps s)] ∧
      acc'.order = acc.order ++ (if classify conf comps s = .free then [s.e.id] else []) ∧
      acc'.determ = acc.determ ++ (if classify conf comps s = .composite then [s.e.id] else []) ∧
      acc'.n = acc.n + (if classify conf comps s = .free then 1 else 0) ∧
      acc'.rows = acc.rows ++ [((match classify conf comps s with
        | .free => Idx.num (acc.n + 1) | .composite => .star | _ => .blank), s.cname, s.pname)] := by
  obtain ⟨owner, ho⟩ := compParam_isSome hw (mem_slots hs)
  unfold slotStep
  simp only [ho]
  by_cases h1 : (s.cid, s.pname) = owner
  · subst h1
    by_cases h2 : s.e.isComposite
    · by_cases h3 : hasInterval conf s.e
      · simp [h2, h3, classify, ho]
      · by_cases h4 : allFixed conf s.e
        · simp [h2, h3, h4, classify, ho]
        · simp [h2, h3, h4, classify, ho]
    · cases h3 : conf.kind s.e.id <;> simp [h2, h3, classify, ho]
  · have : some owner ≠ some (s.cid, s.pname) := fun h => h1 (Option.some.inj h).symm
    simp [h1, classify, ho, this]

/-- The numbers in the first column of the table, in order. -/
def numbers (rows : List (Idx × String × String)) : List Nat :=
  rows.filterMap fun r => match r.1 with | .num n => some n | _ => none

theorem slots_fold {K : Type} {conf : Conf K} {comps : List Comp} (hw : WF conf comps) (l : List Slot)
    (hl : ∀ s ∈ l, s ∈ slots comps) (acc : Acc) :
    ∃ acc', l.foldlM (slotStep conf comps) acc = .ok acc' ∧
      acc'.setup = acc.setup ++ l.map (fun s => ((s.cid, s.pname), classify conf comps s)) ∧
      acc'.order = acc.order ++ (l.filter fun s => classify conf comps s = .free).map (fun s => s.e.id) ∧
      acc'.determ = acc.determ ++ (l.filter fun s => classify conf comps s = .composite).map (fun s => s.e.id) ∧
      (acc.n = acc.order.length → acc'.n = acc'.order.length) ∧
      (acc.n = acc.order.length → numbers acc.rows = List.range' 1 acc.n →
        numbers acc'.rows = List.range' 1 acc'.n) := by
  induction l generalizing acc with
  | nil => exact ⟨acc, rfl, by simp, by simp, by simp, id, fun _ h => h⟩
  | cons s l ih =>
    obtain ⟨a, ha, h1, h2, h3, h4, h5⟩ := slotStep_ok hw (hl s (by simp)) acc
    obtain ⟨b, hb, g1, g2, g3, g4, g5⟩ := ih (fun t ht => hl t (by simp [ht])) a
    refine ⟨b, ?_, ?_, ?_, ?_, ?_, ?_⟩
    · simp only [List.foldlM_cons, ha]
      exact hb
    · rw [g1, h1]; simp
    · rw [g2, h2]
      by_cases hc : classify conf comps s = .free <;> simp [hc]
    · rw [g3, h3]
      by_cases hc : classify conf comps s = .composite <;> simp [hc]
    · intro hn
      apply g4
      rw [h4, h2]
      by_cases hc : classify conf comps s = .free <;> simp [hc, hn]
    · intro hn hr
      apply g5
      · rw [h4, h2]
        by_cases hc : classify conf comps s = .free <;> simp [hc, hn]
      · rw [h5, h4]
        simp only [numbers] at hr
        cases hc : classify conf comps s <;>
          simp [numbers, hr, List.range'_1_concat, Nat.add_comm]

theorem aux_fold {K : Type} (conf : Conf K) (l : List Pid) (acc : Acc) :
    (l.foldl (auxStep conf) acc).setup = acc.setup ∧
    (l.foldl (auxStep conf) acc).determ = acc.determ ∧
    (l.foldl (auxStep conf) acc).order = acc.order ++ l.filter (fun p => conf.kind p = .free) ∧
    (acc.n = acc.order.length → (l.foldl (auxStep conf) acc).n = (l.foldl (auxStep conf) acc).order.length) ∧
    (numbers acc.rows = List.range' 1 acc.n →
      numbers (l.foldl (auxStep conf) acc).rows = List.range' 1 (l.foldl (auxStep conf) acc).n) := by
  induction l generalizing acc with
  | nil => simp
  | cons p l ih =>
    simp only [List.foldl_cons]
    obtain ⟨h1, h2, h3, h4, h5⟩ := ih (auxStep conf acc p)
    by_cases hk : conf.kind p = .free
    · have e : auxStep conf acc p = { acc with n := acc.n + 1, order := acc.order ++ [p], rows := acc.rows ++ [(.num (acc.n + 1), "", conf.auxName p)] } := by
        simp [auxStep, hk]
      rw [e] at h1 h2 h3 h4 h5 ⊢
      refine ⟨h1, h2, by rw [h3]; simp [hk], fun hn => h4 (by simp [hn]), fun hr => h5 ?_⟩
      simp only [numbers] at hr
      simp [numbers, hr, List.range'_1_concat, Nat.add_comm]
    · have e : auxStep conf acc p = { acc with rows := acc.rows ++ [(.blank, "", conf.auxName p)] } := by
        simp [auxStep, hk]
      rw [e] at h1 h2 h3 h4 h5 ⊢
      refine ⟨h1, h2, by rw [h3]; simp [hk], fun hn => h4 (by simp [hn]), fun hr => h5 ?_⟩
      simp only [numbers] at hr
      simp [numbers, hr]

theorem collect_spec {K : Type} {conf : Conf K} {comps : List Comp} (hw : WF conf comps) :
    ∃ acc, collect conf comps = .ok acc ∧
      acc.setup = (slots comps).map (fun s => ((s.cid, s.pname), classify conf comps s)) ∧
      acc.order = ((slots comps).filter fun s => classify conf comps s = .free).map (fun s => s.e.id)
        ++ (auxParams conf comps).filter (fun p => conf.kind p = .free) ∧
      acc.determ = ((slots comps).filter fun s => classify conf comps s = .composite).map (fun s => s.e.id) ∧
      acc.n = acc.order.length ∧ numbers acc.rows = List.range' 1 acc.n := by
  obtain ⟨a, ha, h1, h2, h3, h4, h5⟩ := slots_fold hw (slots comps) (fun _ h => h) ⟨0, [], [], [], []⟩
  obtain ⟨g1, g2, g3, g4, g5⟩ := aux_fold conf (auxParams conf comps) a
  refine ⟨(auxParams conf comps).foldl (auxStep conf) a, by simp only [collect, ha], ?_, ?_, ?_, ?_, ?_⟩
  · rw [g1, h1]; simp
  · rw [g3, h2]; simp
  · rw [g2, h3]; simp
  · exact g4 (h4 rfl)
  · exact g5 (h5 rfl (by simp [numbers]))

theorem mem_sampleIds {K : Type} {conf : Conf K} {comps : List Comp} (hw : WF conf comps) {p : Pid} :
    p ∈ sampleIds conf comps ↔ FreeIn conf comps p := by
  simp only [sampleIds, List.mem_map, List.mem_filter, mem_paramsInfo hw, FreeIn]
  constructor
  · rintro ⟨x, ⟨hx, hc⟩, rfl⟩
    cases x with
    | leaf i =>
      simp only [PExpr.isComposite, Bool.not_false, Bool.true_and, beq_iff_eq] at hc
      exact ⟨hc, hx⟩
    | bin => simp [PExpr.isComposite] at hc
    | call => simp [PExpr.isComposite] at hc
  · rintro ⟨hk, hx⟩
    exact ⟨.leaf p, ⟨hx, by simp [PExpr.isComposite, PExpr.id, hk]⟩, rfl⟩

theorem mem_auxParams {K : Type} {conf : Conf K} {comps : List Comp} (hw : WF conf comps) {p : Pid} :
    p ∈ auxParams conf comps ↔
      compParam conf comps p = none ∧ ∃ c n e, Holds comps c n e ∧ PartOf (.leaf p) e := by
  simp only [auxParams, List.mem_map, List.mem_filter, mem_paramsInfo hw]
  constructor
  · rintro ⟨x, ⟨hx, hc⟩, rfl⟩
    cases x with
    | leaf i =>
      simp only [PExpr.isComposite, Bool.not_false, Bool.and_true, Option.isNone_iff_eq_none] at hc
      exact ⟨hc, hx⟩
    | bin => simp [PExpr.isComposite] at hc
    | call => simp [PExpr.isComposite] at hc
  · rintro ⟨hk, hx⟩
    exact ⟨.leaf p, ⟨hx, by simp [PExpr.isComposite, PExpr.id, hk]⟩, rfl⟩

theorem classify_free {K : Type} {conf : Conf K} {comps : List Comp} {s : Slot} :
    classify conf comps s = .free ↔
      compParam conf comps s.e.id = some (s.cid, s.pname) ∧ s.e = .leaf s.e.id ∧ conf.kind s.e.id = .free := by
  unfold classify
  by_cases h1 : compParam conf comps s.e.id = some (s.cid, s.pname)
  · simp only [h1, ne_eq, not_true_eq_false, if_false, true_and]
    cases he : s.e with
    | leaf i => cases h3 : conf.kind i <;> simp [PExpr.isComposite, PExpr.id, h3]
    | bin i o l r =>
      simp only [PExpr.isComposite, PExpr.id, if_true]
      split_ifs <;> simp
    | call i f a =>
      simp only [PExpr.isComposite, PExpr.id, if_true]
      split_ifs <;> simp
  · simp [h1]

theorem mem_order {K : Type} {conf : Conf K} {comps : List Comp} (hw : WF conf comps) {p : Pid} :
    p ∈ ((slots comps).filter fun s => classify conf comps s = .free).map (fun s => s.e.id)
        ++ (auxParams conf comps).filter (fun p => conf.kind p = .free) ↔ FreeIn conf comps p := by
  simp only [List.mem_append, List.mem_map, List.mem_filter, decide_eq_true_eq, classify_free,
    mem_auxParams hw]
  constructor
  · rintro (⟨s, ⟨hs, _, hl, hk⟩, rfl⟩ | ⟨⟨_, hx⟩, hk⟩)
    · exact ⟨hk, _, _, _, mem_slots hs, hl ▸ .self _⟩
    · exact ⟨hk, hx⟩
  · rintro ⟨hk, c, n, e, hh, hp⟩
    cases hcp : compParam conf comps p with
    | none => exact Or.inr ⟨⟨rfl, c, n, e, hh, hp⟩, hk⟩
    | some r =>
      obtain ⟨c', n'⟩ := r
      obtain ⟨e', hh', he'⟩ := compParam_some hw hcp
      have : e' = .leaf p := hw.same _ _ _ _ _ _ e' (.leaf p) hh' hh (.self _) hp (by simpa [PExpr.id] using he')
      subst this
      obtain ⟨s, hs, h1, h2, h3⟩ := holds_slot hh'
      refine Or.inl ⟨s, ⟨hs, ?_, ?_, ?_⟩, ?_⟩ <;> simp_all [PExpr.id]

theorem order_nodup {K : Type} {conf : Conf K} {comps : List Comp} (hw : WF conf comps) :
    (((slots comps).filter fun s => classify conf comps s = .free).map (fun s => s.e.id)
        ++ (auxParams conf comps).filter (fun p => conf.kind p = .free)).Nodup := by
  refine List.Nodup.append ?_ ?_ ?_
  · refine List.Nodup.map_on ?_ ((List.Nodup.of_map _ (slots_nodup hw)).filter _)
    intro s hs t ht hst
    simp only [List.mem_filter, decide_eq_true_eq, classify_free] at hs ht
    have : (s.cid, s.pname) = (t.cid, t.pname) := by
      have h := hs.2.1
      rw [hst, ht.2.1] at h
      exact (Option.some.inj h).symm
    exact List.inj_on_of_nodup_map (slots_nodup hw) hs.1 ht.1 this
  · exact ((dedupId_nodup _).sublist (List.filter_sublist.map _)).filter _
  · intro p hp hp'
    simp only [List.mem_map, List.mem_filter, decide_eq_true_eq, classify_free] at hp hp'
    obtain ⟨s, ⟨_, h1, _⟩, rfl⟩ := hp
    have := ((mem_auxParams hw).1 hp'.1).1
    rw [h1] at this
    cases this

theorem modelInfo_spec {K : Type} {conf : Conf K} {comps : List Comp} (hw : WF conf comps) :
    ∃ acc, collect conf comps = .ok acc ∧ modelInfo conf comps = .ok acc := by
  obtain ⟨acc, hc, _, ho, _⟩ := collect_spec hw
  refine ⟨acc, hc, ?_⟩
  simp only [modelInfo, hc]
  rw [if_neg]
  push Not
  ext p
  rw [List.mem_toFinset, List.mem_toFinset, ho, mem_order hw, mem_sampleIds hw]

/-! ## C61 -/

/-- Collecting the parameters of a model never fails, lists every free parameter the model depends
on exactly once, and numbers them 1, 2, … in the displayed table. -/
theorem C61_free_parameters {K : Type} {conf : Conf K} {comps : List Comp} (hw : WF conf comps) :
    ∃ acc, modelInfo conf comps = .ok acc ∧ acc.order.Nodup ∧
      (∀ p, p ∈ acc.order ↔ FreeIn conf comps p) ∧
      numbers acc.rows = List.range' 1 acc.order.length := by
  obtain ⟨acc, hc, _, ho, _, hn, hr⟩ := collect_spec hw
  obtain ⟨acc', hc', hm⟩ := modelInfo_spec hw
  rw [hc] at hc'; cases hc'
  refine ⟨acc, hm, ho ▸ order_nodup hw, fun p => by rw [ho]; exact mem_order hw, hn ▸ hr⟩

/-- Every parameter object used by a slot is *owned* by exactly one slot holding it (all other slots
holding it are "forwarded" to that one); an owned slot is classified by what the parameter is:
interval if it contains an interval parameter, fixed if nothing in it can vary, composite or free
otherwise. -/
theorem C61_setup {K : Type} {conf : Conf K} {comps : List Comp} (hw : WF conf comps) :
    ∃ acc, modelInfo conf comps = .ok acc ∧
      acc.setup.map Prod.fst = (slots comps).map (fun s => (s.cid, s.pname)) ∧
      (∀ c n e, Holds comps c n e →
        ∃ c' n', Holds comps c' n' e ∧ ((c', n'), Setup.forwarded) ∉ acc.setup ∧
          (∀ c'' n'', Holds comps c'' n'' e → (c'', n'') ≠ (c', n') →
            ((c'', n''), Setup.forwarded) ∈ acc.setup) ∧
          (((c', n'), Setup.integrated) ∈ acc.setup ↔ ∃ p, PartOf (.leaf p) e ∧ conf.kind p = .interval) ∧
          (((c', n'), Setup.fixed) ∈ acc.setup ↔ ∀ p, PartOf (.leaf p) e → conf.kind p = .fixed) ∧
          (((c', n'), Setup.free) ∈ acc.setup ↔ ∃ p, e = .leaf p ∧ conf.kind p = .free) ∧
          (((c', n'), Setup.composite) ∈ acc.setup ↔ (∀ p, e ≠ .leaf p) ∧
            (∀ p, PartOf (.leaf p) e → conf.kind p ≠ .interval) ∧ ∃ p, PartOf (.leaf p) e ∧ conf.kind p = .free)) := by
  obtain ⟨acc, hc, hs, _, _, _, _⟩ := collect_spec hw
  obtain ⟨acc', hc', hm⟩ := modelInfo_spec hw
  rw [hc] at hc'; cases hc'
  refine ⟨acc, hm, by rw [hs, List.map_map]; rfl, ?_⟩
  intro c n e hh
  obtain ⟨⟨c', n'⟩, hcp⟩ := compParam_isSome hw hh
  obtain ⟨e', hh', he'⟩ := compParam_some hw hcp
  have : e' = e := hw.same _ _ _ _ _ _ e' e hh' hh (.self _) (.self _) he'
  subst this
  have key : ∀ c'' n'' su, Holds comps c'' n'' e' → (((c'', n''), su) ∈ acc.setup ↔
      ∃ s, s ∈ slots comps ∧ s.cid = c'' ∧ s.pname = n'' ∧ s.e = e' ∧ classify conf comps s = su) := by
    intro c'' n'' su hh''
    rw [hs, List.mem_map]
    constructor
    · rintro ⟨s, hss, he⟩
      simp only [Prod.mk.injEq] at he
      obtain ⟨⟨rfl, rfl⟩, rfl⟩ := he
      exact ⟨s, hss, rfl, rfl, holds_unique hw (mem_slots hss) hh'', rfl⟩
    · rintro ⟨s, hss, rfl, rfl, _, rfl⟩
      exact ⟨s, hss, rfl⟩
  obtain ⟨t, ht, rfl, rfl, rfl⟩ := holds_slot hh'
  have owned : ∀ su, ((t.cid, t.pname), su) ∈ acc.setup ↔ classify conf comps t = su := by
    intro su
    rw [key _ _ su hh']
    constructor
    · rintro ⟨s, hss, h1, h2, h3, h4⟩
      have : s = t := List.inj_on_of_nodup_map (slots_nodup hw) hss ht (by simp [h1, h2])
      subst this; exact h4
    · intro h; exact ⟨t, ht, rfl, rfl, rfl, h⟩
  have hleafAll : ∀ q : Pid → Prop, (∀ p ∈ t.e.leaves, q p) ↔ ∀ p, PartOf (.leaf p) t.e → q p := by
    intro q; simp only [mem_leaves]
  have hmem : ∀ p, p ∈ t.e.leaves ↔ PartOf (.leaf p) t.e := fun p => mem_leaves
  have hne : t.e.leaves ≠ [] := by
    generalize t.e = x
    induction x with
    | leaf i => simp [PExpr.leaves]
    | bin i o l r hl hr => simp [PExpr.leaves, hl]
    | call i f a ha => simpa [PExpr.leaves] using ha
  have hcl : classify conf comps t = if t.e.isComposite then
      (if hasInterval conf t.e then .integrated else if allFixed conf t.e then .fixed else .composite)
      else match conf.kind t.e.id with
      | .interval => .integrated
      | .fixed => .fixed
      | .free => .free := by
    simp [classify, hcp]
  refine ⟨t.cid, t.pname, hh', ?_, ?_, ?_⟩
  · rw [owned, hcl]
    split_ifs <;> first | (intro h; cases h) | (cases conf.kind t.e.id <;> simp)
  · intro c'' n'' hh'' hne'
    rw [key _ _ _ hh'']
    obtain ⟨s, hss, rfl, rfl, h3⟩ := holds_slot hh''
    refine ⟨s, hss, rfl, rfl, h3, ?_⟩
    simp only [classify, h3, hcp]
    rw [if_pos]
    intro h
    exact hne' (Option.some.inj h).symm
  · simp only [owned, hcl, ← hmem]
    have hI : hasInterval conf t.e = true ↔ ∃ p, p ∈ t.e.leaves ∧ conf.kind p = .interval := by
      simp [hasInterval]
    have hF : allFixed conf t.e = true ↔ ∀ p, p ∈ t.e.leaves → conf.kind p ≠ .free := by
      simp [allFixed]
    cases he : t.e with
    | leaf i =>
      cases hk : conf.kind i <;>
        simp [PExpr.isComposite, PExpr.id, PExpr.leaves, hk]
    | bin i o l r =>
      rw [he] at hI hF hne
      simp only [PExpr.isComposite, if_true]
      by_cases h1 : hasInterval conf (.bin i o l r) = true
      · obtain ⟨p, hp, hk⟩ := hI.1 h1
        simp only [h1, if_true]
        refine ⟨by simp [hI.1 h1], by simp; exact ⟨p, hp, by simp [hk]⟩, by simp, ?_⟩
        simp
        intro h
        exact absurd hk (h p hp)
      · have hn : ∀ p, p ∈ (PExpr.bin i o l r).leaves → conf.kind p ≠ .interval := by
          intro p hp hk; exact h1 (hI.2 ⟨p, hp, hk⟩)
        by_cases h2 : allFixed conf (.bin i o l r) = true
        · have h2' := hF.1 h2
          simp only [h1, h2, if_true]
          refine ⟨by simp; exact hn, ?_, by simp, ?_⟩
          · simp
            intro p hp
            have := hn p hp; have := h2' p hp
            cases hk : conf.kind p <;> simp_all
          · simp
            intro _ p hp; exact h2' p hp
        · have h2' : ∃ p, p ∈ (PExpr.bin i o l r).leaves ∧ conf.kind p = .free := by
            by_contra hcon
            push Not at hcon
            exact h2 (hF.2 hcon)
          obtain ⟨p, hp, hk⟩ := h2'
          simp only [h1, h2]
          refine ⟨by simp; exact hn, by simp; exact ⟨p, hp, by simp [hk]⟩, by simp, ?_⟩
          simp
          exact ⟨hn, p, hp, hk⟩
    | call i f a =>
      rw [he] at hI hF hne
      simp only [PExpr.isComposite, if_true]
      by_cases h1 : hasInterval conf (.call i f a) = true
      · obtain ⟨p, hp, hk⟩ := hI.1 h1
        simp only [h1, if_true]
        refine ⟨by simp [hI.1 h1], by simp; exact ⟨p, hp, by simp [hk]⟩, by simp, ?_⟩
        simp
        intro h
        exact absurd hk (h p hp)
      · have hn : ∀ p, p ∈ (PExpr.call i f a).leaves → conf.kind p ≠ .interval := by
          intro p hp hk; exact h1 (hI.2 ⟨p, hp, hk⟩)
        by_cases h2 : allFixed conf (.call i f a) = true
        · have h2' := hF.1 h2
          simp only [h1, h2, if_true]
          refine ⟨by simp; exact hn, ?_, by simp, ?_⟩
          · simp
            intro p hp
            have := hn p hp; have := h2' p hp
            cases hk : conf.kind p <;> simp_all
          · simp
            intro _ p hp; exact h2' p hp
        · have h2' : ∃ p, p ∈ (PExpr.call i f a).leaves ∧ conf.kind p = .free := by
            by_contra hcon
            push Not at hcon
            exact h2 (hF.2 hcon)
          obtain ⟨p, hp, hk⟩ := h2'
          simp only [h1, h2]
          refine ⟨by simp; exact hn, by simp; exact ⟨p, hp, by simp [hk]⟩, by simp, ?_⟩
          simp
          exact ⟨hn, p, hp, hk⟩

/-- Every parameter the displayed names refer to has a name: each leaf of each slot, and each slot
(under the name `component.slot` of the slot that owns it). -/
theorem C61_named {K : Type} {conf : Conf K} {comps : List Comp} (hw : WF conf comps) {c n e}
    (hh : Holds comps c n e) :
    (∀ p, PartOf (.leaf p) e → (nameMapping conf comps p).isSome) ∧
    ∃ comp ∈ comps, ∃ n', (n', e) ∈ comp.params ∧
      nameMapping conf comps e.id = some (comp.name ++ "." ++ n') := by
  have named : ∀ p c' n', compParam conf comps p = some (c', n') →
      ∃ comp ∈ comps, ∃ e', (n', e') ∈ comp.params ∧ e'.id = p ∧
        nameMapping conf comps p = some (comp.name ++ "." ++ n') := by
    intro p c' n' hcp
    obtain ⟨e', ⟨comp, hcm, rfl, hpm⟩, he'⟩ := compParam_some hw hcp
    have hfind : comps.find? (fun d => d.cid == comp.cid) = some comp := by
      cases hf : comps.find? (fun d => d.cid == comp.cid) with
      | none =>
        rw [List.find?_eq_none] at hf
        exact absurd (by simp) (hf comp hcm)
      | some d =>
        have h1 := List.mem_of_find?_eq_some hf
        have h2 := List.find?_some hf
        simp only [beq_iff_eq] at h2
        rw [List.inj_on_of_nodup_map hw.cids h1 hcm h2]
    exact ⟨comp, hcm, e', hpm, he', by simp [nameMapping, hcp, nameOfCid, hfind]⟩
  constructor
  · intro p hp
    cases hcp : compParam conf comps p with
    | none =>
      have : p ∈ auxParams conf comps := (mem_auxParams hw).2 ⟨hcp, c, n, e, hh, hp⟩
      simp [nameMapping, hcp, this]
    | some r =>
      obtain ⟨comp, _, e', _, _, hnm⟩ := named p r.1 r.2 hcp
      simp [hnm]
  · obtain ⟨⟨c', n'⟩, hcp⟩ := compParam_isSome hw hh
    obtain ⟨comp, hcm, e', hpm, he', hnm⟩ := named _ _ _ hcp
    have : e' = e := hw.same _ _ _ _ _ _ e' e ⟨comp, hcm, rfl, hpm⟩ hh (.self _) (.self _) he'
    subst this
    exact ⟨comp, hcm, n', hpm, hnm⟩

end Elisa.Models.Info
