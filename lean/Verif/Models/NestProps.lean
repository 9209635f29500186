import Verif.Models.CompileProps
import Mathlib.Data.Real.Basic
import Mathlib.Tactic

/-!
# C132: freezing or linking a parameter gives a nested model

Freezing a free parameter at a value inside its bounds (`param.default = v; param.fixed = True`) or
replacing it by an expression of other parameters (`comp.slot = expression`) leaves a model whose
predictions are among those of the original model: the best value of *any* fit statistic, which is a
function of the values the model function receives in its slots, cannot improve.
-/

namespace Elisa.Models.Nest

open Elisa.Models Elisa.Models.Label Elisa.Models.Track Elisa.Models.Info

/-! ## Specification -/

/-- The values a fit may try: only free parameters of the model are varied, within their bounds. -/
def Tried (lo hi : Pid → ℝ) (conf : Conf ℝ) (comps : List Comp) (m : Pid → Option ℝ) : Prop :=
  ∀ p v, m p = some v → FreeIn conf comps p ∧ lo p ≤ v ∧ v ≤ hi p

/-- `param.default = v; param.fixed = True`: the parameter is now a constant.
(`UniformParameter.default`, `DistParameter.fixed`: parameter.py:522-531, 564-570.) -/
def freeze (conf : Conf ℝ) (p : Pid) (v : ℝ) : Conf ℝ :=
  { conf with kind := Function.update conf.kind p .fixed, default := Function.update conf.default p v }

/-- `comp[n] = e` (`ComponentMeta` slot assignment, model.py:1427-1539): slot `n` of component `c`
receives `e`, everything else is as before. -/
def link (c : Cid) (n : PName) (e : PExpr) (comps : List Comp) : List Comp :=
  comps.map fun comp => if comp.cid = c then
    { comp with params := comp.params.map fun q => if q.1 = n then (n, e) else q } else comp

/-! ## Lemmas -/

variable {pw : ℝ → ℝ → ℝ} {fn : String → ℝ → ℝ}

theorem slotValues_eq {conf : Conf ℝ} {comps : List Comp} {c : Compiled ℝ} (h : compile conf comps = .ok c) (m : Pid → Option ℝ) :
    c.slotValues pw fn m = (slots comps).map fun s =>
      ((s.cid, s.pname), value pw fn (fun p => (m p).getD (conf.default p)) s.e) := by
  obtain ⟨_, _, _, _, hf, hs⟩ := compile_ok h
  simp only [Compiled.slotValues, hf, hs, List.map_map]
  apply List.map_congr_left
  intro s _
  simp only [Function.comp, capture_run, dictOr_getD]

theorem compile_total {conf : Conf ℝ} {comps : List Comp} (hw : WF conf comps) : ∃ c, compile conf comps = .ok c := by
  obtain ⟨acc, h, _⟩ := C61_free_parameters hw
  exact ⟨_, by simp only [compile, h]; rfl⟩

theorem freeze_wf {conf : Conf ℝ} {comps : List Comp} (hw : WF conf comps) (p : Pid) (v : ℝ) : WF (freeze conf p v) comps :=
  ⟨hw.cids, hw.pnames, hw.same, hw.mirror⟩

theorem freeze_free {conf : Conf ℝ} {comps : List Comp} {p q : Pid} {v : ℝ} :
    FreeIn (freeze conf p v) comps q ↔ q ≠ p ∧ FreeIn conf comps q := by
  unfold FreeIn freeze
  by_cases h : q = p
  · subst h; simp
  · simp [h]

theorem value_congr {u w : Pid → ℝ} {e : PExpr} (h : ∀ p, PartOf (.leaf p) e → u p = w p) :
    value pw fn u e = value pw fn w e := by
  induction e with
  | leaf i => exact h i (.self _)
  | bin i o l r hl hr => simp only [value, hl fun p hp => h p (.lhs hp), hr fun p hp => h p (.rhs hp)]
  | call i f a ha => simp only [value, ha fun p hp => h p (.arg hp)]

theorem slots_link (c : Cid) (n : PName) (e : PExpr) (comps : List Comp) :
    slots (link c n e comps) = (slots comps).map fun s => if s.cid = c ∧ s.pname = n then { s with e := e } else s := by
  simp only [slots, link, List.flatMap_map, List.map_flatMap]
  apply List.flatMap_congr
  intro comp _
  by_cases hc : comp.cid = c
  · simp only [hc, if_true, List.map_map]
    apply List.map_congr_left
    intro q _
    by_cases hq : q.1 = n <;> simp [hq]
  · simp [hc, Function.comp]

/-! ## Freezing -/

/-- **C132 (freezing).**  Freezing a free parameter at a value inside its bounds never fails, and what
the frozen model can be evaluated to is *exactly* what the original model can be evaluated to with
that parameter held at the value. -/
theorem C132_freeze {conf : Conf ℝ} {comps : List Comp} (hw : WF conf comps) {p : Pid} (hp : FreeIn conf comps p) {v : ℝ}
    (lo hi : Pid → ℝ) (hl : lo p ≤ v) (hh : v ≤ hi p) {c : Compiled ℝ} (h : compile conf comps = .ok c) :
    ∃ c', compile (freeze conf p v) comps = .ok c' ∧ ∀ out,
      (∃ m, Tried lo hi (freeze conf p v) comps m ∧ c'.slotValues pw fn m = out) ↔
      (∃ m, Tried lo hi conf comps m ∧ m p = some v ∧ c.slotValues pw fn m = out) := by
  obtain ⟨c', h'⟩ := compile_total (freeze_wf hw p v)
  refine ⟨c', h', fun out => ⟨?_, ?_⟩⟩
  · rintro ⟨m, hm, rfl⟩
    refine ⟨Function.update m p (some v), ?_, by simp, ?_⟩
    · intro q w hq
      by_cases hqp : q = p
      · subst hqp
        simp only [Function.update_self, Option.some.injEq] at hq
        subst hq
        exact ⟨hp, hl, hh⟩
      · rw [Function.update_of_ne hqp] at hq
        exact ⟨(freeze_free.1 (hm q w hq).1).2, (hm q w hq).2⟩
    · rw [slotValues_eq h, slotValues_eq h']
      apply List.map_congr_left
      intro s _
      refine congrArg (Prod.mk _) (value_congr fun q _ => ?_)
      by_cases hqp : q = p
      · subst hqp
        have : m q = none := by
          by_contra hne
          obtain ⟨w, hw'⟩ := Option.ne_none_iff_exists'.1 hne
          exact (freeze_free.1 (hm q w hw').1).1 rfl
        simp [this, freeze]
      · simp [Function.update_of_ne hqp, freeze]
  · rintro ⟨m, hm, hv, rfl⟩
    refine ⟨Function.update m p none, ?_, ?_⟩
    · intro q w hq
      by_cases hqp : q = p
      · subst hqp; simp at hq
      · rw [Function.update_of_ne hqp] at hq
        exact ⟨freeze_free.2 ⟨hqp, (hm q w hq).1⟩, (hm q w hq).2⟩
    · rw [slotValues_eq h, slotValues_eq h']
      apply List.map_congr_left
      intro s _
      refine congrArg (Prod.mk _) (value_congr fun q _ => ?_)
      by_cases hqp : q = p
      · subst hqp; simp [hv, freeze]
      · simp [Function.update_of_ne hqp, freeze]

/-- **C132 (best fit of a frozen model).**  Whatever the statistic, the best fit of the original model is
at least as good as anything the model with a frozen parameter reaches: a likelihood-ratio test
statistic is never negative. -/
theorem C132_freeze_best {conf : Conf ℝ} {comps : List Comp} (hw : WF conf comps) {p : Pid} (hp : FreeIn conf comps p) {v : ℝ}
    (lo hi : Pid → ℝ) (hl : lo p ≤ v) (hh : v ≤ hi p) {c c' : Compiled ℝ} (h : compile conf comps = .ok c)
    (h' : compile (freeze conf p v) comps = .ok c') (stat : List ((Cid × PName) × ℝ) → ℝ) {best : Pid → Option ℝ}
    (hbest : ∀ m, Tried lo hi conf comps m → stat (c.slotValues pw fn best) ≤ stat (c.slotValues pw fn m))
    {m' : Pid → Option ℝ} (hm' : Tried lo hi (freeze conf p v) comps m') :
    stat (c.slotValues pw fn best) ≤ stat (c'.slotValues pw fn m') := by
  obtain ⟨c'', h'', hall⟩ := C132_freeze (pw := pw) (fn := fn) hw hp lo hi hl hh h
  obtain rfl : c' = c'' := Except.ok.inj (h'.symm.trans h'')
  obtain ⟨m, hm, _, he⟩ := (hall _).1 ⟨m', hm', rfl⟩
  rw [← he]
  exact hbest m hm

/-- **C132 (number of free parameters).**  Freezing a free parameter of the model lowers the number of
free parameters by exactly one and keeps the others. -/
theorem C132_freeze_count {conf : Conf ℝ} {comps : List Comp} (hw : WF conf comps) {p : Pid} (hp : FreeIn conf comps p) (v : ℝ)
    {acc acc' : Acc} (h : modelInfo conf comps = .ok acc) (h' : modelInfo (freeze conf p v) comps = .ok acc') :
    acc'.order.length + 1 = acc.order.length ∧ ∀ q, q ∈ acc'.order ↔ q ≠ p ∧ q ∈ acc.order := by
  obtain ⟨a, ha, nd, mem, _⟩ := C61_free_parameters hw
  obtain ⟨a', ha', nd', mem', _⟩ := C61_free_parameters (freeze_wf hw p v)
  obtain rfl : acc = a := Except.ok.inj (h.symm.trans ha)
  obtain rfl : acc' = a' := Except.ok.inj (h'.symm.trans ha')
  have hmem : ∀ q, q ∈ acc'.order ↔ q ≠ p ∧ q ∈ acc.order := by
    intro q
    rw [mem', mem, freeze_free]
  refine ⟨?_, hmem⟩
  have e : acc'.order.toFinset = acc.order.toFinset.erase p := by
    ext q
    simp [hmem]
  have e1 := List.toFinset_card_of_nodup nd
  have e2 := List.toFinset_card_of_nodup nd'
  have hin : p ∈ acc.order.toFinset := by simp [mem, hp]
  have := Finset.card_erase_add_one hin
  rw [← e, e1, e2] at this
  exact this

/-! ## Linking -/

/-- **C132 (linking).**  A slot holding a free parameter used nowhere else is given an expression of other
parameters.  Whenever the value of that expression is inside the bounds of the replaced parameter,
the linked model receives the same values as the original model does with that parameter set to the
value of the expression.

`_partial`: the value of the expression must be inside the bounds of the replaced parameter, which the
code does not require (`C132_link_refuted`). -/
theorem C132_link_partial {conf conf' : Conf ℝ} {comps : List Comp} (hw : WF conf comps) {cid : Cid} {n : PName} {p : Pid}
    (hp : Holds comps cid n (.leaf p)) (hfree : conf.kind p = .free)
    (honly : ∀ c' n' e', Holds comps c' n' e' → PartOf (.leaf p) e' → (c', n') = (cid, n))
    {e : PExpr}
    (hknown : ∀ q, PartOf (.leaf q) e → conf.kind q = .free → FreeIn conf comps q)
    (hk : conf'.kind = conf.kind) (hd : conf'.default = conf.default)
    (lo hi : Pid → ℝ) {c c' : Compiled ℝ} (h : compile conf comps = .ok c) (h' : compile conf' (link cid n e comps) = .ok c')
    {m' : Pid → Option ℝ} (hm' : Tried lo hi conf' (link cid n e comps) m') (v : ℝ)
    (hv : ((cid, n), v) ∈ c'.slotValues pw fn m') (hlo : lo p ≤ v) (hhi : v ≤ hi p) :
    ∃ m, Tried lo hi conf comps m ∧ m p = some v ∧ c.slotValues pw fn m = c'.slotValues pw fn m' := by
  have hve : v = value pw fn (fun p => (m' p).getD (conf.default p)) e := by
    rw [slotValues_eq h', slots_link, List.map_map, List.mem_map] at hv
    obtain ⟨s, hs, he⟩ := hv
    by_cases hsc : s.cid = cid ∧ s.pname = n
    · simp only [Function.comp, hsc, and_self, if_true, Prod.mk.injEq, hd] at he
      exact he.2.symm
    · simp only [Function.comp, hsc, if_false, Prod.mk.injEq] at he
      exact he.1.elim
  refine ⟨Function.update m' p (some v), ?_, by simp, ?_⟩
  · intro q w hq
    by_cases hqp : q = p
    · subst hqp
      simp only [Function.update_self, Option.some.injEq] at hq
      subst hq
      exact ⟨⟨hfree, cid, n, _, hp, .self _⟩, hlo, hhi⟩
    · rw [Function.update_of_ne hqp] at hq
      obtain ⟨⟨hkq, c1, n1, e1, hh1, hp1⟩, hb⟩ := hm' q w hq
      refine ⟨?_, hb⟩
      rw [hk] at hkq
      obtain ⟨s, hs, rfl, rfl, rfl⟩ := holds_slot hh1
      rw [slots_link, List.mem_map] at hs
      obtain ⟨t, ht, rfl⟩ := hs
      by_cases htc : t.cid = cid ∧ t.pname = n
      · simp only [htc, and_self, if_true] at hp1
        exact hknown q hp1 hkq
      · simp only [htc, if_false] at hp1
        exact ⟨hkq, _, _, _, mem_slots ht, hp1⟩
  · rw [slotValues_eq h, slotValues_eq h', slots_link, List.map_map]
    apply List.map_congr_left
    intro s hs
    by_cases hsc : s.cid = cid ∧ s.pname = n
    · have hse : s.e = .leaf p := by
        have := mem_slots hs
        rw [hsc.1, hsc.2] at this
        exact holds_unique hw this hp
      simp [Function.comp, hsc, hse, value, hd, ← hve]
    · have hns : ¬ PartOf (.leaf p) s.e := by
        intro hpart
        have := honly _ _ _ (mem_slots hs) hpart
        simp only [Prod.mk.injEq] at this
        exact hsc this
      simp only [Function.comp, hsc, if_false, hd]
      refine congrArg (Prod.mk _) (value_congr fun q hq => ?_)
      have : q ≠ p := fun hqp => hns (hqp ▸ hq)
      simp [Function.update_of_ne this]

/-- `PowerLaw(K=1) + PowerLaw(K=2)`: two normalisations, both free. -/
def two : List Comp := [⟨100, "PowerLaw", [("K", .leaf 1)]⟩, ⟨200, "PowerLaw2", [("K", .leaf 2)]⟩]

/-- Parameters 1 and 2 are free and start at 1. -/
def twoConf : Conf ℝ where
  kind _ := .free
  default _ := 1
  auxName _ := "f"
  hist := histOf two

/-- The same after `PowerLaw2.K = PowerLaw.K`. -/
def tiedConf : Conf ℝ := { twoConf with hist := histOf (link 200 "K" (.leaf 1) two) }

theorem two_wf : WF twoConf two := wf_of (by decide) (by decide) (by decide) rfl
theorem tied_wf : WF tiedConf (link 200 "K" (.leaf 1) two) := wf_of (by decide) (by decide) (by decide) rfl

/-- **C132 (refuted).**  Linking a slot to a parameter with wider bounds widens what the slot can receive:
with the normalisations bounded by `[0, 10]` and `[0, 1]`, the model with the second linked to the
first reaches the value 0 of a statistic of which the original model never gets below 16, with one
free parameter less. -/
theorem C132_link_refuted : ∃ (lo hi : Pid → ℝ) (c c' : Compiled ℝ) (stat : List ((Cid × PName) × ℝ) → ℝ) (m' : Pid → Option ℝ),
    compile twoConf two = .ok c ∧ compile tiedConf (link 200 "K" (.leaf 1) two) = .ok c' ∧
    Tried lo hi tiedConf (link 200 "K" (.leaf 1) two) m' ∧
    stat (c'.slotValues (fun x _ => x) (fun _ x => x) m') = 0 ∧
    ∀ m, Tried lo hi twoConf two m → 16 ≤ stat (c.slotValues (fun x _ => x) (fun _ x => x) m) := by
  obtain ⟨c, h⟩ := compile_total two_wf
  obtain ⟨c', h'⟩ := compile_total tied_wf
  refine ⟨fun _ => 0, fun p => if p = 1 then 10 else 1, c, c', fun l => (l.map fun q => (q.2 - 5) ^ 2).sum,
    fun p => if p = 1 then some 5 else none, h, h', ?_, ?_, ?_⟩
  · intro p v hv
    by_cases hp : p = 1
    · subst hp
      simp only [if_true, Option.some.injEq] at hv
      subst hv
      exact ⟨⟨rfl, 100, "K", .leaf 1, ⟨⟨100, "PowerLaw", [("K", .leaf 1)]⟩, by simp [link, two]⟩, .self _⟩, by norm_num⟩
    · simp [hp] at hv
  · rw [slotValues_eq h']
    simp [slots, link, two, value]
  · intro m hm
    have hb : (m 2).getD 1 ≤ 1 := by
      cases hm2 : m 2 with
      | none => simp
      | some v => simpa using (hm 2 v hm2).2.2
    rw [slotValues_eq h]
    simp only [slots, two, twoConf, value, List.flatMap_cons, List.flatMap_nil, List.map_cons, List.map_nil, List.append_nil,
      List.cons_append, List.nil_append, List.sum_cons, List.sum_nil, add_zero]
    nlinarith [sq_nonneg ((m 1).getD 1 - 5)]

theorem two_free : FreeIn twoConf two 2 :=
  ⟨rfl, 200, "K", .leaf 2, ⟨⟨200, "PowerLaw2", [("K", .leaf 2)]⟩, by simp [two]⟩, .self _⟩

/-- The hypotheses are met: the second normalisation of `two` can be frozen at 3, and the frozen model has one free parameter. -/
example : ∃ acc, modelInfo (freeze twoConf 2 3) two = .ok acc ∧ acc.order.length + 1 = 2 := by
  obtain ⟨a, ha, _⟩ := C61_free_parameters two_wf
  obtain ⟨a', ha', _⟩ := C61_free_parameters (freeze_wf two_wf 2 3)
  have := (C132_freeze_count two_wf two_free 3 ha ha').1
  refine ⟨a', ha', ?_⟩
  have h2 : modelInfo twoConf two = .ok a → a.order.length = 2 := by
    intro h
    have e : ∃ acc, modelInfo twoConf two = .ok acc ∧ acc.order.length = 2 := ⟨_, rfl, rfl⟩
    obtain ⟨b, hb, hl⟩ := e
    rw [hb] at h
    cases h
    exact hl
  rw [h2 ha] at this
  exact this

/-- … and what the frozen model reaches with the first normalisation at 2 is reached by the full model. -/
example : ∃ c c', compile twoConf two = .ok c ∧ compile (freeze twoConf 2 3) two = .ok c' ∧
    ∃ m, Tried (fun _ => 0) (fun _ => 10) twoConf two m ∧ m 2 = some 3 ∧
      c.slotValues (fun x _ => x) (fun _ x => x) m =
        c'.slotValues (fun x _ => x) (fun _ x => x) (fun p => if p = 1 then some 2 else none) := by
  obtain ⟨c, h⟩ := compile_total two_wf
  obtain ⟨c', h', hall⟩ := C132_freeze (pw := fun x _ => x) (fn := fun _ x => x) two_wf two_free (v := 3) (fun _ => 0) (fun _ => 10)
    (by norm_num) (by norm_num) h
  refine ⟨c, c', h, h', (hall _).1 ⟨_, ?_, rfl⟩⟩
  intro p v hv
  by_cases hp : p = 1
  · subst hp
    simp only [if_true, Option.some.injEq] at hv
    subst hv
    exact ⟨freeze_free.2 ⟨by decide, rfl, 100, "K", .leaf 1, ⟨⟨100, "PowerLaw", [("K", .leaf 1)]⟩, by simp [two]⟩, .self _⟩, by norm_num⟩
  · simp [hp] at hv

/-- … and linking the second normalisation to the first, which is at 1, is a special case of the full model. -/
example : ∃ c c', compile twoConf two = .ok c ∧ compile tiedConf (link 200 "K" (.leaf 1) two) = .ok c' ∧
    ∃ m, Tried (fun _ => 0) (fun _ => 10) twoConf two m ∧ m 2 = some 1 ∧
      c.slotValues (fun x _ => x) (fun _ x => x) m = c'.slotValues (fun x _ => x) (fun _ x => x) (fun _ => none) := by
  obtain ⟨c, h⟩ := compile_total two_wf
  obtain ⟨c', h'⟩ := compile_total tied_wf
  refine ⟨c, c', h, h', ?_⟩
  refine C132_link_partial (conf' := tiedConf) two_wf (cid := 200) (n := "K") (p := 2) (e := .leaf 1)
    ⟨⟨200, "PowerLaw2", [("K", .leaf 2)]⟩, by simp [two]⟩ rfl ?_ ?_ rfl rfl _ _ h h' (by intro p v hv; simp at hv) 1 ?_ (by norm_num) (by norm_num)
  · intro c1 n1 e1 hh hp
    obtain ⟨comp, hc, rfl, hq⟩ := hh
    simp only [two, List.mem_cons, List.not_mem_nil, or_false] at hc
    rcases hc with rfl | rfl <;> simp at hq <;> obtain ⟨rfl, rfl⟩ := hq
    · cases hp
    · rfl
  · intro q hq _
    cases hq
    exact ⟨rfl, 100, "K", .leaf 1, ⟨⟨100, "PowerLaw", [("K", .leaf 1)]⟩, by simp [two]⟩, .self _⟩
  · rw [slotValues_eq h']
    simp [slots, link, two, value, tiedConf, twoConf]

end Elisa.Models.Nest
