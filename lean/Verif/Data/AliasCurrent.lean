import Verif.Data.AliasProps

/-!
# C137: the grouped arrays belong to the grouping and the ranges in force
-/

namespace Elisa.Data.Alias

open Elisa

/-- The attribute that shows the same array without a background (specification, models no code). -/
def alias' (b : Option ℕ) (f : DField) : DField :=
  if b = none ∧ f = .netCounts then .specCounts else if b = none ∧ f = .netErrors then .specErrors else f

/-- The grouped arrays of a data set are those of its flags and ranges as they are now (specification, models no code). -/
def Current (C : Calc) (w : World) (o : Obs) : Prop :=
  ∀ f, content w.heap (o.refs f) = C.derive (w.specVals o.spec) (w.respVals o.resp) (o.back.map w.specVals)
    (content w.heap o.good) (content w.heap o.grouping) (content w.heap o.erange) (alias' o.back f)

/-- The user writes into no array and asks for none, and gives matrices that are not sparse arrays (specification, models no code). -/
def Modest : Op → Prop
  | .write .. | .readSpec .. | .readResp .. | .readObs .. | .readGrouping .. | .readErange .. | .readGood .. => False
  | .response _ sparse => sparse = false
  | _ => True

/-- What the references of a data set are to (specification, models no code). -/
structure Refers (w : World) (o : Obs) : Prop where
  spec : o.spec < w.specs.length
  resp : o.resp < w.resps.length
  back : ∀ k, o.back = some k → k < w.specs.length
  good : o.good < w.heap.length ∧ o.good ∉ w.known
  erange : o.erange < w.heap.length ∧ o.erange ∉ w.known

/-- States of modest histories; the data sets in `D` are not up to date (specification, models no code). -/
structure Clean (C : Calc) (D : ℕ → Prop) (w : World) : Prop where
  known : ∀ a ∈ w.known, a < w.heap.length
  specs : ∀ x ∈ w.specs, ∀ f, x f < w.heap.length ∧ x f ∉ w.known
  flags : ∀ x ∈ w.specs, (content w.heap (x .grouping)).head? ≠ some (-1)
  resps : ∀ x ∈ w.resps, ∀ f, x f < w.heap.length ∧ x f ∉ w.known
  refers : ∀ o ∈ w.obs, Refers w o
  obs : ∀ (i : ℕ) (o : Obs), w.obs[i]? = some o → ¬ D i → o.grouping < w.heap.length ∧ (content w.heap o.grouping).head? ≠ some (-1) ∧
    (content w.heap o.grouping).length = (w.respVals o.resp .names).length ∧ (∀ f, o.refs f < w.heap.length ∧ o.refs f ∉ w.known) ∧ Current C w o

/-- Arrays that no reset of a first flag changes (specification, models no code). -/
def Fixed' (w : World) (a : ℕ) : Prop := a < w.heap.length ∧ (a ∉ w.known ∨ (content w.heap a).head? ≠ some (-1))

/-- The state with more or changed arrays is as clean, if no array in use has changed. -/
theorem clean_heap {C : Calc} {D : ℕ → Prop} {w : World} (hc : Clean C D w) (h : Heap) (hl : w.heap.length ≤ h.length)
    (hf : ∀ a, Fixed' w a → content h a = content w.heap a) : Clean C D { w with heap := h } := by
  have hsv : ∀ s, s < w.specs.length → ({ w with heap := h } : World).specVals s = w.specVals s := by
    intro s hs
    funext f
    have := hc.specs _ (getD_mem (z := fun _ => 0) hs) f
    exact hf _ ⟨this.1, Or.inl this.2⟩
  have hrv : ∀ r, r < w.resps.length → ({ w with heap := h } : World).respVals r = w.respVals r := by
    intro r hr
    funext f
    have := hc.resps _ (getD_mem (z := fun _ => 0) hr) f
    exact hf _ ⟨this.1, Or.inl this.2⟩
  refine ⟨fun a ha => lt_of_lt_of_le (hc.known a ha) hl, fun x hx f => ⟨lt_of_lt_of_le (hc.specs x hx f).1 hl, (hc.specs x hx f).2⟩, ?_,
    fun x hx f => ⟨lt_of_lt_of_le (hc.resps x hx f).1 hl, (hc.resps x hx f).2⟩, ?_, ?_⟩
  · intro x hx
    have := hc.specs x hx .grouping
    show (content h (x .grouping)).head? ≠ _
    rw [hf _ ⟨this.1, Or.inl this.2⟩]
    exact hc.flags x hx
  · intro o ho
    obtain ⟨a1, a2, a3, a4, a5⟩ := hc.refers o ho
    exact ⟨a1, a2, a3, ⟨lt_of_lt_of_le a4.1 hl, a4.2⟩, ⟨lt_of_lt_of_le a5.1 hl, a5.2⟩⟩
  · intro i o ho hd
    obtain ⟨a1, a2, a3, a4, a5⟩ := hc.refers o (List.mem_of_getElem? ho)
    obtain ⟨b1, b2, b3, b4, b5⟩ := hc.obs i o ho hd
    have hg : content h o.grouping = content w.heap o.grouping := hf _ ⟨b1, Or.inr b2⟩
    refine ⟨lt_of_lt_of_le b1 hl, ?_, ?_, fun f => ⟨lt_of_lt_of_le (b4 f).1 hl, (b4 f).2⟩, ?_⟩
    · show (content h o.grouping).head? ≠ _
      rw [hg]; exact b2
    · show (content h o.grouping).length = _
      rw [hg, hrv _ a2]; exact b3
    · intro f
      show content h (o.refs f) = C.derive _ _ _ (content h o.good) (content h o.grouping) (content h o.erange) _
      rw [hf _ ⟨(b4 f).1, Or.inl (b4 f).2⟩, b5 f, hsv _ a1, hrv _ a2, hg, hf _ ⟨a4.1, Or.inl a4.2⟩, hf _ ⟨a5.1, Or.inl a5.2⟩]
      congr 1
      cases hb : o.back with
      | none => rfl
      | some k => simp only [Option.map_some, hsv k (a3 k hb)]

theorem reset_fixed {w : World} (g : ℕ) (hg : g ∈ w.known ∨ (content w.heap g).head? ≠ some (-1)) (a : ℕ) (ha : Fixed' w a) :
    content (reset w.heap g) a = content w.heap a := by
  by_cases hne : g = a
  · subst hne
    have : (content w.heap g).head? ≠ some (-1) := by
      rcases ha.2 with h | h
      · exact hg.resolve_left h
      · exact h
    unfold reset
    rw [if_neg this]
  · exact reset_content hne

theorem reset_head (h : Heap) (g : ℕ) (hg : g < h.length) : (content (reset h g) g).head? ≠ some (-1) ∧ (content (reset h g) g).length = (content h g).length := by
  unfold reset
  split_ifs with hh
  · have : content (h.set g (1 :: (content h g).tail)) g = 1 :: (content h g).tail := by
      simp [content, List.getD_eq_getElem?_getD, List.getElem?_set_self hg]
    rw [this]
    refine ⟨by simp, ?_⟩
    cases hc : content h g with
    | nil => rw [hc] at hh; simp at hh
    | cons x t => simp
  · exact ⟨hh, rfl⟩

theorem mem_set_cases {α : Type} {l : List α} {d : ℕ} {x y : α} (h : y ∈ l.set d x) : y = x ∨ y ∈ l := (List.mem_or_eq_of_mem_set h).symm

/-- Setting the flags brings a data set up to date. -/
theorem regroup_clean (C : Calc) {w : World} (d : ℕ) (o : Obs) (g : ℕ) (hc : Clean C (· = d) w) (hg : g < w.heap.length)
    (hk : g ∈ w.known ∨ (content w.heap g).head? ≠ some (-1)) (ho : Refers w o)
    (hlen : (content w.heap g).length = (w.respVals o.resp .names).length) : Clean C none' (regroup C w d o g) := by
  have hcl : Clean C (· = d) { w with heap := reset w.heap g } := clean_heap hc _ (reset_length _ _).ge (reset_fixed g hk)
  have hh := reset_head w.heap g hg
  have ho' : Refers { w with heap := reset w.heap g } o :=
    ⟨ho.spec, ho.resp, ho.back, ⟨(reset_length w.heap g).symm ▸ ho.good.1, ho.good.2⟩, ⟨(reset_length w.heap g).symm ▸ ho.erange.1, ho.erange.2⟩⟩
  have hlen' : (content (reset w.heap g) g).length = (({ w with heap := reset w.heap g } : World).respVals o.resp .names).length := by
    rw [hh.2, hlen]
    have := hc.resps _ (getD_mem (z := fun _ => 0) ho.resp) .names
    exact congrArg _ (reset_fixed g hk _ ⟨this.1, Or.inl this.2⟩).symm
  have hg' : g < ({ w with heap := reset w.heap g } : World).heap.length := (reset_length w.heap g).symm ▸ hg
  have he : regroup C w d o g = (fun w1 : World =>
      { w1 with
        heap := w1.heap ++ DField.all.map (C.derive (w1.specVals o.spec) (w1.respVals o.resp) (o.back.map w1.specVals) (content w1.heap o.good)
          (content w1.heap g) (content w1.heap o.erange))
        obs := w1.obs.set d { o with grouping := g, refs := fun f => w1.heap.length + DField.all.idxOf (alias' o.back f) } })
      { w with heap := reset w.heap g } := by
    unfold regroup
    rw [if_neg (not_not.2 hlen)]
    dsimp only [place]
    congr 3
    funext f
    unfold alias'
    split_ifs <;> rfl
  rw [he]
  have hh1 := hh.1
  clear he hc hk ho hlen hh hg
  revert hh1
  show (content ({ w with heap := reset w.heap g } : World).heap g).head? ≠ some (-1) → _
  replace hlen' : (content ({ w with heap := reset w.heap g } : World).heap g).length = _ := hlen'
  generalize ({ w with heap := reset w.heap g } : World) = u at *
  intro hh1
  have hcu := clean_heap hcl (u.heap ++ DField.all.map (C.derive (u.specVals o.spec) (u.respVals o.resp) (o.back.map u.specVals) (content u.heap o.good)
          (content u.heap g) (content u.heap o.erange))) (by simp) (fun a ha => content_append ha.1)
  dsimp only
  have hlenU : (u.heap ++ DField.all.map (C.derive (u.specVals o.spec) (u.respVals o.resp) (o.back.map u.specVals) (content u.heap o.good)
          (content u.heap g) (content u.heap o.erange))).length = u.heap.length + 18 := by simp [all_length]
  refine ⟨hcu.known, hcu.specs, hcu.flags, hcu.resps, ?_, ?_⟩
  · intro o' hm
    rcases mem_set_cases hm with rfl | hm
    · refine ⟨ho'.spec, ho'.resp, ho'.back, ⟨?_, ho'.good.2⟩, ⟨?_, ho'.erange.2⟩⟩
      · have := ho'.good.1; rw [hlenU]; show o.good < _; omega
      · have := ho'.erange.1; rw [hlenU]; show o.erange < _; omega
    · have h := hcu.refers o' hm
      exact ⟨h.spec, h.resp, h.back, h.good, h.erange⟩
  · intro i o' hi _
    rw [List.getElem?_set] at hi
    split_ifs at hi with e1 e2
    · obtain rfl := Option.some.inj hi
      have gsv : ∀ s, s < u.specs.length → ∀ t obs', (⟨u.heap ++ t, u.known, u.specs, u.resps, obs', u.fits⟩ : World).specVals s = u.specVals s := by
        intro s hs t obs'
        funext f
        exact content_append (hcl.specs _ (getD_mem (z := fun _ => 0) hs) f).1
      have grv : ∀ s, s < u.resps.length → ∀ t obs', (⟨u.heap ++ t, u.known, u.specs, u.resps, obs', u.fits⟩ : World).respVals s = u.respVals s := by
        intro s hs t obs'
        funext f
        exact content_append (hcl.resps _ (getD_mem (z := fun _ => 0) hs) f).1
      have hidx : ∀ f, DField.all.idxOf f < 18 := by intro f; cases f <;> decide
      refine ⟨?_, ?_, ?_, fun f => ⟨?_, fun hk => ?_⟩, fun f => ?_⟩
      · rw [hlenU]; show g < _; omega
      · show (content (u.heap ++ _) g).head? ≠ _
        rw [content_append hg']; exact hh1
      · show (content (u.heap ++ _) g).length = _
        rw [content_append hg', grv _ ho'.resp]; exact hlen'
      · rw [hlenU]; show u.heap.length + _ < _; have := hidx (alias' o.back f); omega
      · have : u.heap.length + DField.all.idxOf (alias' o.back f) < u.heap.length := hcl.known _ hk
        omega
      · have hi' : DField.all[DField.all.idxOf (alias' o.back f)]? = some (alias' o.back f) := by
          generalize alias' o.back f = f'
          cases f' <;> rfl
        have hv : ∀ F : DField → List ℤ, content (u.heap ++ DField.all.map F) (u.heap.length + DField.all.idxOf (alias' o.back f)) = F (alias' o.back f) := by
          intro F
          simp only [content, List.getD_eq_getElem?_getD]
          rw [List.getElem?_append_right (Nat.le_add_right _ _), Nat.add_sub_cancel_left, List.getElem?_map, hi']
          rfl
        show content (u.heap ++ DField.all.map _) (u.heap.length + DField.all.idxOf (alias' o.back f)) = C.derive _ _ _ (content (u.heap ++ _) o.good)
          (content (u.heap ++ _) g) (content (u.heap ++ _) o.erange) _
        rw [hv, content_append ho'.good.1, content_append hg', content_append ho'.erange.1, gsv _ ho'.spec, grv _ ho'.resp]
        congr 1
        cases hb : o.back with
        | none => rfl
        | some k => simp only [Option.map_some, gsv k (ho'.back k hb)]
    · exact hcu.obs i o' hi (fun h => e1 h.symm)

theorem clean_except {C : Calc} {D : ℕ → Prop} {w : World} (hc : Clean C none' w) : Clean C D w :=
  ⟨hc.known, hc.specs, hc.flags, hc.resps, hc.refers, fun i o ho _ => hc.obs i o ho id⟩

theorem clean_grow {C : Calc} {D : ℕ → Prop} {w : World} (hc : Clean C D w) (t : Heap) : Clean C D { w with heap := w.heap ++ t } :=
  clean_heap hc _ (by simp) fun a ha => content_append ha.1

theorem refers_grow {w : World} {o : Obs} (h : Refers w o) (t : Heap) : Refers { w with heap := w.heap ++ t } o :=
  ⟨h.spec, h.resp, h.back, ⟨by have := h.good.1; simp only [List.length_append]; omega, h.good.2⟩,
    ⟨by have := h.erange.1; simp only [List.length_append]; omega, h.erange.2⟩⟩

theorem regroup_clean' (C : Calc) {w : World} (d : ℕ) (o : Obs) (g : ℕ) (hc : Clean C none' w) (hg : g < w.heap.length)
    (hk : g ∈ w.known ∨ (content w.heap g).head? ≠ some (-1)) (ho : Refers w o) : Clean C none' (regroup C w d o g) := by
  by_cases hlen : (content w.heap g).length = (w.respVals o.resp .names).length
  · exact regroup_clean C d o g (clean_except hc) hg hk ho hlen
  · rcases regroup_cases C w d o g with ⟨h, -⟩ | ⟨v, refs, h, -⟩
    · rw [h]; exact hc
    · have : regroup C w d o g = w := if_pos hlen
      rw [this]; exact hc

/-- Spectra keep flags whose first is not -1 (base.py:1277-1284), and a grouping method gives such flags. -/
structure Sound (C : Calc) : Prop where
  spectrum : ∀ v u, C.spectrum v = some u → (u .grouping).head? ≠ some (-1)
  group : ∀ m s r b good e v, C.group m s r b good e = some v → v.head? ≠ some (-1)

theorem step_clean (C : Calc) (hC : Sound C) {w : World} (hc : Clean C none' w) (op : Op) (hm : Modest op) : Clean C none' (step C w op) := by
  cases op with
  | make v =>
    have h := clean_grow hc [v]
    have hne : ∀ a, a < w.heap.length → a ∉ w.known → a ∉ w.heap.length :: w.known := by
      intro a h1 h2 h3
      rcases List.mem_cons.1 h3 with rfl | h3
      · omega
      · exact h2 h3
    refine ⟨?_, fun x hx f => ⟨(h.specs x hx f).1, hne _ (hc.specs x hx f).1 (hc.specs x hx f).2⟩, h.flags,
      fun x hx f => ⟨(h.resps x hx f).1, hne _ (hc.resps x hx f).1 (hc.resps x hx f).2⟩, ?_, ?_⟩
    · intro a ha
      rcases List.mem_cons.1 ha with rfl | ha
      · simp [step]
      · exact h.known a ha
    · intro o ho
      have h1 := hc.refers o ho
      have h2 := h.refers o ho
      exact ⟨h2.spec, h2.resp, h2.back, ⟨h2.good.1, hne _ h1.good.1 h1.good.2⟩, ⟨h2.erange.1, hne _ h1.erange.1 h1.erange.2⟩⟩
    · intro i o ho hd
      obtain ⟨b1, b2, b3, b4, b5⟩ := h.obs i o ho hd
      obtain ⟨c1, c2, c3, c4, c5⟩ := hc.obs i o ho hd
      exact ⟨b1, b2, b3, fun f => ⟨(b4 f).1, hne _ (c4 f).1 (c4 f).2⟩, b5⟩
  | spectrum args =>
    simp only [step]
    split_ifs with h
    · cases hv : C.spectrum fun f => content w.heap (args f) with
      | none => exact hc
      | some v =>
        have hg := clean_grow hc (SField.all.map v)
        have hidx : ∀ f, SField.all.idxOf f < SField.all.length := by intro f; cases f <;> decide
        have hsv : ∀ s, s < w.specs.length → ∀ h' : Heap, (⟨h', w.known, w.specs ++ [fun f => w.heap.length + SField.all.idxOf f], w.resps, w.obs, w.fits⟩ : World).specVals s
            = (⟨h', w.known, w.specs, w.resps, w.obs, w.fits⟩ : World).specVals s := by
          intro s hs h'
          funext f
          simp only [World.specVals, List.getD_eq_getElem?_getD, List.getElem?_append_left hs]
        refine ⟨hg.known, ?_, ?_, hg.resps, ?_, ?_⟩
        · intro x hx f
          simp only [List.mem_append, List.mem_singleton] at hx
          rcases hx with hx | rfl
          · exact hg.specs x hx f
          · refine ⟨?_, fun hk => ?_⟩
            · simp only [place, List.length_append, List.length_map]
              have := hidx f
              omega
            · have : w.heap.length + SField.all.idxOf f < w.heap.length := hc.known _ hk
              omega
        · intro x hx
          simp only [List.mem_append, List.mem_singleton] at hx
          rcases hx with hx | rfl
          · exact hg.flags x hx
          · have : content (w.heap ++ SField.all.map v) (w.heap.length + SField.all.idxOf .grouping) = v .grouping := by
              simp only [content, List.getD_eq_getElem?_getD]
              rw [List.getElem?_append_right (Nat.le_add_right _ _), Nat.add_sub_cancel_left, List.getElem?_map]
              rfl
            simp only [place]
            rw [this]
            exact hC.spectrum _ v hv
        · intro o ho
          have h2 := hg.refers o ho
          exact ⟨by have := h2.spec; simp only [List.length_append]; exact Nat.lt_add_right _ this, h2.resp,
            fun k hk => by have := h2.back k hk; simp only [List.length_append]; exact Nat.lt_add_right _ this, h2.good, h2.erange⟩
        · intro i o ho hd
          have h2 := hc.refers o (List.mem_of_getElem? ho)
          obtain ⟨b1, b2, b3, b4, b5⟩ := hg.obs i o ho hd
          refine ⟨b1, b2, b3, b4, fun f => ?_⟩
          simp only [place]
          rw [hsv _ h2.spec, b5 f]
          congr 1
          cases hb : o.back with
          | none => rfl
          | some k =>
            simp only [Option.map_some]
            rw [hsv k (h2.back k hb)]
    · exact hc
  | response args sparse =>
    have hsp : sparse = false := hm
    subst hsp
    simp only [step]
    split_ifs with h
    · cases hv : C.response fun f => content w.heap (args f) with
      | none => exact hc
      | some v =>
        have hg := clean_grow hc (RField.all.map v)
        have hidx : ∀ f, RField.all.idxOf f < RField.all.length := by intro f; cases f <;> decide
        have hrv : ∀ s, s < w.resps.length → ∀ (h' : Heap) (y : RField → ℕ), (⟨h', w.known, w.specs, w.resps ++ [y], w.obs, w.fits⟩ : World).respVals s
            = (⟨h', w.known, w.specs, w.resps, w.obs, w.fits⟩ : World).respVals s := by
          intro s hs h' y
          funext f
          simp only [World.respVals, List.getD_eq_getElem?_getD, List.getElem?_append_left hs]
        refine ⟨hg.known, hg.specs, hg.flags, ?_, ?_, ?_⟩
        · intro x hx f
          simp only [List.mem_append, List.mem_singleton] at hx
          rcases hx with hx | rfl
          · exact hg.resps x hx f
          · refine ⟨?_, fun hk => ?_⟩
            · simp only [place, Bool.false_eq_true, false_and, if_false, List.length_append, List.length_map]
              have := hidx f
              omega
            · simp only [place, Bool.false_eq_true, false_and, if_false] at hk
              have : w.heap.length + RField.all.idxOf f < w.heap.length := hc.known _ hk
              omega
        · intro o ho
          have h2 := hg.refers o ho
          exact ⟨h2.spec, by have := h2.resp; simp only [List.length_append]; exact Nat.lt_add_right _ this, h2.back, h2.good, h2.erange⟩
        · intro i o ho hd
          have h2 := hc.refers o (List.mem_of_getElem? ho)
          obtain ⟨b1, b2, b3, b4, b5⟩ := hg.obs i o ho hd
          refine ⟨b1, b2, ?_, b4, fun f => ?_⟩
          · simp only [place]
            rw [hrv _ h2.resp]
            exact b3
          · simp only [place]
            rw [hrv _ h2.resp]
            exact b5 f
    · exact hc
  | observe s r b e =>
    simp only [step]
    split_ifs with h
    · cases C.erange (content w.heap e) with
      | none => exact hc
      | some v =>
        dsimp only
        have hg := hc.specs _ (getD_mem (z := fun _ => 0) h.2.1) .grouping
        have hcl := clean_grow hc [v, C.good (w.specVals s) (b.map w.specVals)]
        have hr := hc.resps _ (getD_mem (z := fun _ => 0) h.2.2.1) .names
        have hnew : Refers { w with heap := w.heap ++ [v, C.good (w.specVals s) (b.map w.specVals)], obs := w.obs ++ [⟨s, r, b, w.heap.length + 1, (w.specs.getD s fun _ => 0) .grouping, w.heap.length, fun _ => w.heap.length⟩] }
            ⟨s, r, b, w.heap.length + 1, (w.specs.getD s fun _ => 0) .grouping, w.heap.length, fun _ => w.heap.length⟩ := by
          refine ⟨h.2.1, h.2.2.1, fun k hk => h.2.2.2.1 k hk, ⟨by simp, fun hk => ?_⟩, ⟨by simp, fun hk => ?_⟩⟩
          · have : w.heap.length + 1 < w.heap.length := hc.known _ hk
            omega
          · have : w.heap.length < w.heap.length := hc.known _ hk
            omega
        refine regroup_clean C w.obs.length _ _ ⟨hcl.known, hcl.specs, hcl.flags, hcl.resps, ?_, ?_⟩ ?_ ?_ hnew ?_
        · intro o ho
          rcases List.mem_append.1 ho with ho | ho
          · have h2 := hcl.refers o ho
            exact ⟨h2.spec, h2.resp, h2.back, h2.good, h2.erange⟩
          · obtain rfl := List.mem_singleton.1 ho
            exact hnew
        · intro i o ho hd
          rw [List.getElem?_append] at ho
          split_ifs at ho with hi
          · exact hcl.obs i o ho id
          · rw [List.getElem?_singleton] at ho
            split_ifs at ho
            exact absurd (by omega) hd
        · simp only [List.length_append]; omega
        · right
          have := hc.flags _ (getD_mem (z := fun _ => 0) h.2.1)
          show (content (w.heap ++ _) _).head? ≠ _
          rw [content_append hg.1]
          exact this
        · show (content (w.heap ++ _) _).length = (content (w.heap ++ _) ((w.resps.getD r fun _ => 0) .names)).length
          rw [content_append hg.1, content_append hr.1]
          exact h.2.2.2.2
    · exact hc
  | setGrouping d g =>
    simp only [step]
    cases ho : w.obs[d]? with
    | none => exact hc
    | some o =>
      have h2 := hc.refers o (List.mem_of_getElem? ho)
      cases g with
      | none =>
        exact regroup_clean' C d o _ hc (hc.specs _ (getD_mem h2.spec) .grouping).1 (Or.inr (hc.flags _ (getD_mem h2.spec))) h2
      | some b =>
        dsimp only
        split_ifs with hk
        · exact regroup_clean' C d o b hc (hc.known b hk) (Or.inl hk) h2
        · exact hc
  | setErange d e =>
    simp only [step]
    cases ho : w.obs[d]? with
    | none => exact hc
    | some o =>
      have h2 := hc.refers o (List.mem_of_getElem? ho)
      obtain ⟨b1, b2, b3, b4, b5⟩ := hc.obs d o ho id
      dsimp only
      split_ifs with hk
      · unfold rerange
        cases C.erange (content w.heap e) with
        | none => exact hc
        | some v =>
          dsimp only
          have hcl := clean_grow hc [v]
          have hr := hc.resps _ (getD_mem (z := fun _ => 0) h2.resp) .names
          have hnew : Refers { w with heap := w.heap ++ [v], obs := w.obs.set d { o with erange := w.heap.length } } { o with erange := w.heap.length } := by
            refine ⟨h2.spec, h2.resp, h2.back, ⟨?_, h2.good.2⟩, ⟨by simp, fun hk => ?_⟩⟩
            · have := h2.good.1; simp only [List.length_append]; omega
            · have : w.heap.length < w.heap.length := hc.known _ hk
              omega
          refine regroup_clean C d _ _ ⟨hcl.known, hcl.specs, hcl.flags, hcl.resps, ?_, ?_⟩ ?_ ?_ hnew ?_
          · intro o' ho'
            rcases mem_set_cases ho' with rfl | ho'
            · exact hnew
            · have h3 := hcl.refers o' ho'
              exact ⟨h3.spec, h3.resp, h3.back, h3.good, h3.erange⟩
          · intro i o' hi hd
            rw [List.getElem?_set] at hi
            split_ifs at hi with e1
            · exact absurd e1.symm hd
            · exact hcl.obs i o' hi id
          · simp only [List.length_append]; omega
          · right
            show (content (w.heap ++ _) _).head? ≠ _
            rw [content_append b1]
            exact b2
          · show (content (w.heap ++ _) _).length = (content (w.heap ++ _) ((w.resps.getD o.resp fun _ => 0) .names)).length
            rw [content_append b1, content_append hr.1]
            exact b3
      · exact hc
  | group d m =>
    simp only [step]
    cases ho : w.obs[d]? with
    | none => exact hc
    | some o =>
      have h2 := hc.refers o (List.mem_of_getElem? ho)
      dsimp only
      cases hv : C.group m (w.specVals o.spec) (w.respVals o.resp) (o.back.map w.specVals) (content w.heap o.good) (content w.heap o.erange) with
      | none => exact hc
      | some v =>
        refine regroup_clean' C d o _ (clean_grow hc [v]) (by simp) (Or.inr ?_) (refers_grow h2 [v])
        have : content (w.heap ++ [v]) w.heap.length = v := by simp [content, List.getD_eq_getElem?_getD]
        show (content (w.heap ++ [v]) w.heap.length).head? ≠ _
        rw [this]
        exact hC.group _ _ _ _ _ _ _ hv
  | fit d =>
    simp only [step]
    cases ho : w.obs[d]? with
    | none => exact hc
    | some o =>
      have h := clean_grow hc (DField.all.map (fun f => content w.heap (o.refs f)) ++ [w.respVals o.resp .photons])
      rw [← List.append_assoc] at h
      exact ⟨h.known, h.specs, h.flags, h.resps, fun o' ho' => let h2 := h.refers o' ho'; ⟨h2.spec, h2.resp, h2.back, h2.good, h2.erange⟩, h.obs⟩
  | write => exact absurd hm id
  | readSpec => exact absurd hm id
  | readResp => exact absurd hm id
  | readObs => exact absurd hm id
  | readGrouping => exact absurd hm id
  | readErange => exact absurd hm id
  | readGood => exact absurd hm id

/-- **C137** (up to date).  As long as the user writes into no array and asks for none, the grouped arrays of every data set are at all times
those of its flags and energy ranges, computed from the values its spectrum, response and background have - also when one
array of flags has been given to several data sets.

`_partial`: false when arrays are written to, see `C137_argument_refuted`, `C137_restore_refuted`, `C137_net_refuted`. -/
theorem C137_current_partial (C : Calc) (hC : Sound C) (ops : List Op) (hm : ∀ op ∈ ops, Modest op) (d : ℕ) (o : Obs)
    (ho : (past C ops).obs[d]? = some o) : Current C (past C ops) o := by
  have key : Clean C none' (past C ops) := by
    clear ho
    induction ops using List.reverseRecOn with
    | nil =>
      exact ⟨by simp [past, run, World.empty], by simp [past, run, World.empty], by simp [past, run, World.empty], by simp [past, run, World.empty],
        by simp [past, run, World.empty], by simp [past, run, World.empty]⟩
    | append_singleton l op ih =>
      rw [past_append]
      exact step_clean C hC (ih fun o h => hm o (List.mem_append_left _ h)) op (hm op (by simp))
  exact (key.obs d o ho id).2.2.2.2

/-! ## Cases -/

theorem plain_sound : Sound plain := by
  refine ⟨fun v u h => ?_, fun m s r b good e v h => by simp [plain] at h⟩
  simp only [plain, Option.some.injEq] at h
  subst h
  dsimp only
  rw [if_pos rfl]
  split_ifs with hh
  · simp
  · exact hh

/-- One array of flags given to two data sets (specification, models no code). -/
def shared : List Op := start ++ [.observe 0 0 none 3, .make [-1, -1, 1], .setGrouping 0 (some 54), .setGrouping 1 (some 54), .fit 1, .setErange 0 3]

example : countsOf (past plain shared) 0 = some [3, 3] ∧ countsOf (past plain shared) 1 = some [3, 3] ∧ flagsOf (past plain shared) 0 = some [1, -1, 1] := by
  decide +kernel

example (o : Obs) (ho : (past plain shared).obs[1]? = some o) : Current plain (past plain shared) o :=
  C137_current_partial plain plain_sound shared (by
    intro op h
    simp only [shared, start, List.cons_append, List.nil_append, List.mem_cons, List.not_mem_nil, or_false] at h
    rcases h with rfl | rfl | rfl | rfl | rfl | rfl | rfl | rfl | rfl | rfl | rfl | rfl | rfl <;> simp [Modest]) 1 o ho

/-- A fit, and then a number of attempts to change it. -/
example (x : Fixed) (hx : (past plain shared).fits[0]? = some x) :
    content (past plain (shared ++ [.write 54 1 1, .readObs 1 .specCounts, .setErange 1 3])).heap (x.data .specCounts) =
      content (past plain shared).heap (x.data .specCounts) :=
  (C137_fit plain shared _ 0 x hx).2.1 .specCounts

example : ∃ x, (past plain shared).fits[0]? = some x ∧ content (past plain shared).heap (x.data .specCounts) = [3, 3] ∧
    countsOf (past plain (shared ++ [.write 54 1 1, .setErange 1 3])) 1 = some [1, 2, 3] ∧
    content (past plain (shared ++ [.write 54 1 1, .setErange 1 3])).heap (x.data .specCounts) = [3, 3] := by
  refine ⟨(past plain shared).fits.getD 0 ⟨fun _ => 0, 0⟩, by rfl, by decide +kernel, by decide +kernel, by decide +kernel⟩

example : ∃ (o : Obs), (past plain start).obs[0]? = some o ∧
    content (past plain (start ++ [.write 0 0 7, .readGrouping 0, .observe 0 0 none 3, .setGrouping 1 none])).heap (o.refs .specCounts) = [1, 2, 3] := by
  obtain ⟨o, ho⟩ : ∃ o, (past plain start).obs[0]? = some o := ⟨_, rfl⟩
  refine ⟨o, ho, ?_⟩
  rw [(C137_dataset plain start _ 0 o ho (by simp [start]) (by simp [Changes])).2]
  obtain rfl := Option.some.inj (ho.symm.trans rfl)
  decide +kernel

example : ∃ x : SField → ℕ, (past plain start).specs[0]? = some x ∧
    content (past plain (start ++ [.write 0 0 7, .setGrouping 0 none])).heap (x .counts) = [1, 2, 3] := by
  obtain ⟨x, hx⟩ : ∃ x, (past plain start).specs[0]? = some x := ⟨_, rfl⟩
  refine ⟨x, hx, ?_⟩
  rw [(C137_spectrum plain start _ 0 x hx (by simp [start])).2 .counts (by decide)]
  obtain rfl := Option.some.inj (hx.symm.trans rfl)
  decide +kernel

end Elisa.Data.Alias
