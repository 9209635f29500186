import Verif.Data.Alias
import Mathlib.Tactic.SplitIfs
import Mathlib.Tactic.NormNum

/-!
# C137: fits, spectra and data sets keep their arrays
-/

namespace Elisa.Data.Alias

open Elisa

/-! ## Reachable states -/

/-- All addresses in use are below `n`, but for the grouped arrays of the data sets in `D`. -/
structure Below (n : ℕ) (D : ℕ → Prop) (w : World) : Prop where
  known : ∀ a ∈ w.known, a < n
  specs : ∀ x ∈ w.specs, ∀ f, x f < n
  resps : ∀ x ∈ w.resps, ∀ f, x f < n
  obs : ∀ (i : ℕ) (o : Obs), w.obs[i]? = some o →
    o.grouping < n ∧ o.good < n ∧ o.erange < n ∧ o.spec < w.specs.length ∧ (¬ D i → ∀ f, o.refs f < n)

/-- No one but the spectra in `S` and the data sets in `D` refers to the array `a`, and the user does not know it. -/
structure Safe (S D : ℕ → Prop) (w : World) (a : ℕ) : Prop where
  lt : a < w.heap.length
  known : a ∉ w.known
  specs : ∀ (i : ℕ) (x : SField → ℕ), w.specs[i]? = some x → x .grouping ≠ a ∧ (¬ S i → ∀ f, x f ≠ a)
  resps : ∀ x ∈ w.resps, ∀ f, x f ≠ a
  obs : ∀ (i : ℕ) (o : Obs), w.obs[i]? = some o →
    o.grouping ≠ a ∧ o.good ≠ a ∧ o.erange ≠ a ∧ o.spec < w.specs.length ∧ (¬ D i → ∀ f, o.refs f ≠ a)

/-- Does not hand out an array of a spectrum in `S` or a grouped array of a data set in `D`. -/
def Quiet (S D : ℕ → Prop) : Op → Prop
  | .readSpec s _ => ¬ S s
  | .readObs d _ => ¬ D d
  | _ => True

def none' : ℕ → Prop := fun _ => False

theorem safe_of_below {n : ℕ} {D : ℕ → Prop} {w : World} (h : Below n D w) {a : ℕ} (h1 : n ≤ a) (h2 : a < w.heap.length) (S : ℕ → Prop) :
    Safe S D w a where
  lt := h2
  known := fun hk => by have := h.known a hk; omega
  specs := fun i x hx => ⟨by have := h.specs x (List.mem_of_getElem? hx) .grouping; omega,
    fun _ f => by have := h.specs x (List.mem_of_getElem? hx) f; omega⟩
  resps := fun x hx f => by have := h.resps x hx f; omega
  obs := fun i o ho => by
    obtain ⟨a1, a2, a3, a4, a5⟩ := h.obs i o ho
    exact ⟨by omega, by omega, by omega, a4, fun hd f => by have := a5 hd f; omega⟩

theorem content_append {h t : Heap} {a : ℕ} (ha : a < h.length) : content (h ++ t) a = content h a := by
  simp [content, List.getD_eq_getElem?_getD, List.getElem?_append_left ha]

theorem content_set {h : Heap} {a b : ℕ} (v : List ℤ) (hne : b ≠ a) : content (h.set b v) a = content h a := by
  simp [content, List.getD_eq_getElem?_getD, List.getElem?_set_ne hne]

/-! ## Setting the grouping -/

theorem reset_length (h : Heap) (g : ℕ) : (reset h g).length = h.length := by
  unfold reset; split_ifs <;> simp

theorem reset_content {h : Heap} {g a : ℕ} (hne : g ≠ a) : content (reset h g) a = content h a := by
  unfold reset; split_ifs
  · exact content_set _ hne
  · rfl

theorem regroup_cases (C : Calc) (w : World) (d : ℕ) (o : Obs) (g : ℕ) :
    (regroup C w d o g = w ∧ (content w.heap g).length ≠ (w.respVals o.resp .names).length) ∨ ∃ (v : DField → List ℤ) (refs : DField → ℕ), regroup C w d o g =
        { w with heap := reset w.heap g ++ DField.all.map v, obs := w.obs.set d { o with grouping := g, refs := refs } } ∧
      (∀ f, w.heap.length ≤ refs f ∧ refs f < w.heap.length + 18) := by
  unfold regroup
  split_ifs with hlen
  · left; exact ⟨rfl, hlen⟩
  · right
    refine ⟨_, _, rfl, fun f => ?_⟩
    simp only [place, reset_length]
    have hi : ∀ f : DField, DField.all.idxOf f < 18 := by intro f; cases f <;> decide
    have h0 := hi .specCounts
    have h1 := hi .specErrors
    have h2 := hi f
    split_ifs <;> omega

theorem all_length : DField.all.length = 18 := rfl

theorem regroup_safe (C : Calc) {S D : ℕ → Prop} {w : World} {a : ℕ} (hs : Safe S D w a) (d : ℕ) (o : Obs) (g : ℕ) (hg : g ≠ a)
    (ho : o.good ≠ a ∧ o.erange ≠ a ∧ o.spec < w.specs.length) :
    Safe S D (regroup C w d o g) a ∧ content (regroup C w d o g).heap a = content w.heap a := by
  rcases regroup_cases C w d o g with ⟨h, hlen⟩ | ⟨v, refs, h, hr⟩
  · rw [h]; exact ⟨hs, rfl⟩
  · rw [h]
    have hl := hs.lt
    refine ⟨⟨?_, hs.known, hs.specs, hs.resps, ?_⟩, ?_⟩
    · simp [reset_length]; omega
    · intro i o' hi
      rw [List.getElem?_set] at hi
      split_ifs at hi with e1 e2
      · obtain rfl := Option.some.inj hi
        exact ⟨hg, ho.1, ho.2.1, ho.2.2, fun _ f => by have := (hr f).1; show refs f ≠ a; omega⟩
      · exact hs.obs i o' hi
    · show content (reset w.heap g ++ _) a = _
      rw [content_append (by rw [reset_length]; exact hl), reset_content hg]

theorem regroup_below (C : Calc) {w : World} {n : ℕ} (hn : n ≤ w.heap.length) {D : ℕ → Prop} (hb : Below n D w) (d : ℕ) (o : Obs) (g : ℕ)
    (hg : g < n) (ho : o.good < n ∧ o.erange < n ∧ o.spec < w.specs.length) (hd : D d) :
    Below n D (regroup C w d o g) := by
  rcases regroup_cases C w d o g with ⟨h, hlen⟩ | ⟨v, refs, h, hr⟩
  · rw [h]; exact hb
  · rw [h]
    refine ⟨hb.known, hb.specs, hb.resps, ?_⟩
    intro i o' hi
    rw [List.getElem?_set] at hi
    split_ifs at hi with e1 e2
    · obtain rfl := Option.some.inj hi
      subst e1
      exact ⟨hg, ho.1, ho.2.1, ho.2.2, fun h => absurd hd h⟩
    · exact hb.obs i o' hi

theorem below_mono {n m : ℕ} (h : n ≤ m) {D : ℕ → Prop} {w : World} (hb : Below n D w) : Below m D w where
  known := fun a ha => lt_of_lt_of_le (hb.known a ha) h
  specs := fun x hx f => lt_of_lt_of_le (hb.specs x hx f) h
  resps := fun x hx f => lt_of_lt_of_le (hb.resps x hx f) h
  obs := fun i o ho => by
    obtain ⟨a1, a2, a3, a4, a5⟩ := hb.obs i o ho
    exact ⟨lt_of_lt_of_le a1 h, lt_of_lt_of_le a2 h, lt_of_lt_of_le a3 h, a4, fun hd f => lt_of_lt_of_le (a5 hd f) h⟩

theorem regroup_bounded (C : Calc) {w : World} (hb : Below w.heap.length none' w) (d : ℕ) (o : Obs) (g : ℕ)
    (hg : g < w.heap.length) (ho : o.good < w.heap.length ∧ o.erange < w.heap.length ∧ o.spec < w.specs.length) :
    Below (regroup C w d o g).heap.length none' (regroup C w d o g) := by
  rcases regroup_cases C w d o g with ⟨h, hlen⟩ | ⟨v, refs, h, hr⟩
  · rw [h]; exact hb
  · rw [h]
    have hlen : (reset w.heap g ++ DField.all.map v).length = w.heap.length + 18 := by simp [reset_length, all_length]
    have hb' := below_mono (Nat.le_add_right w.heap.length 18) hb
    rw [show ({ w with heap := reset w.heap g ++ DField.all.map v, obs := w.obs.set d { o with grouping := g, refs := refs } } : World).heap.length
      = w.heap.length + 18 from hlen]
    refine ⟨hb'.known, hb'.specs, hb'.resps, ?_⟩
    intro i o' hi
    rw [List.getElem?_set] at hi
    split_ifs at hi with e1 e2
    · obtain rfl := Option.some.inj hi
      refine ⟨?_, ?_, ?_, ho.2.2, fun _ f => (hr f).2⟩
      · show g < _; omega
      · show o.good < _; omega
      · show o.erange < _; omega
    · exact hb'.obs i o' hi

/-! ## One step -/

theorem getD_mem {α : Type} {l : List α} {i : ℕ} {z : α} (h : i < l.length) : l.getD i z ∈ l := by
  rw [List.getD_eq_getElem?_getD, List.getElem?_eq_getElem h]
  exact List.getElem_mem h

theorem safe_grow {S D : ℕ → Prop} {w : World} {a : ℕ} (hs : Safe S D w a) (t : Heap) : Safe S D { w with heap := w.heap ++ t } a :=
  ⟨by have := hs.lt; simp; omega, hs.known, hs.specs, hs.resps, hs.obs⟩

theorem step_safe (C : Calc) {S D : ℕ → Prop} {w : World} {a : ℕ} (hs : Safe S D w a) (op : Op) (hq : Quiet S D op) :
    Safe S D (step C w op) a ∧ content (step C w op).heap a = content w.heap a := by
  have hl := hs.lt
  cases op with
  | make v =>
    refine ⟨⟨by simp only [step, List.length_append]; omega, ?_, hs.specs, hs.resps, hs.obs⟩, content_append hl⟩
    simp only [step, List.mem_cons, not_or]
    exact ⟨by omega, hs.known⟩
  | write b i x =>
    simp only [step]
    split_ifs with h
    · have hne : b ≠ a := fun e => hs.known (e ▸ h)
      exact ⟨⟨by simpa using hl, hs.known, hs.specs, hs.resps, hs.obs⟩, content_set _ hne⟩
    · exact ⟨hs, rfl⟩
  | spectrum args =>
    simp only [step]
    split_ifs with h
    · cases C.spectrum fun f => content w.heap (args f) with
      | none => exact ⟨hs, rfl⟩
      | some v =>
        refine ⟨⟨?_, hs.known, ?_, hs.resps, ?_⟩, content_append hl⟩
        · simp only [place, List.length_append]; omega
        · intro i x hx
          simp only [place] at hx
          rw [List.getElem?_append] at hx
          split_ifs at hx with hi
          · exact hs.specs i x hx
          · have : x = fun f => w.heap.length + SField.all.idxOf f := by
              rw [List.getElem?_singleton] at hx
              split_ifs at hx
              exact (Option.some.inj hx).symm
            subst this
            exact ⟨by show w.heap.length + _ ≠ a; omega, fun _ f => by show w.heap.length + _ ≠ a; omega⟩
        · intro i o ho
          obtain ⟨a1, a2, a3, a4, a5⟩ := hs.obs i o ho
          exact ⟨a1, a2, a3, by simp only [List.length_append]; omega, a5⟩
    · exact ⟨hs, rfl⟩
  | response args sparse =>
    simp only [step]
    split_ifs with h
    · cases C.response fun f => content w.heap (args f) with
      | none => exact ⟨hs, rfl⟩
      | some v =>
        refine ⟨⟨?_, hs.known, hs.specs, ?_, hs.obs⟩, content_append hl⟩
        · simp only [place, List.length_append]; omega
        · intro x hx f
          simp only [List.mem_append, List.mem_singleton] at hx
          rcases hx with hx | rfl
          · exact hs.resps x hx f
          · have hk : args f ∈ w.known := h f (by cases f <;> decide)
            have : args f ≠ a := fun e => hs.known (e ▸ hk)
            simp only [place]
            split_ifs
            · exact this
            · omega
    · exact ⟨hs, rfl⟩
  | observe s r b e =>
    simp only [step]
    split_ifs with h
    · cases C.erange (content w.heap e) with
      | none => exact ⟨hs, rfl⟩
      | some v =>
        dsimp only
        have hg : (w.specs.getD s fun _ => 0) .grouping ≠ a := by
          have h1 := List.getElem?_eq_getElem h.2.1
          rw [List.getD_eq_getElem?_getD, h1]
          exact (hs.specs s _ h1).1
        have key := regroup_safe C (S := S) (D := D) (a := a)
          (w := { w with heap := w.heap ++ [v, C.good (w.specVals s) (b.map w.specVals)],
                         obs := w.obs ++ [⟨s, r, b, w.heap.length + 1, (w.specs.getD s fun _ => 0) .grouping, w.heap.length, fun _ => w.heap.length⟩] })
          ⟨by simp only [List.length_append]; omega, hs.known, hs.specs, hs.resps, ?_⟩ w.obs.length
          ⟨s, r, b, w.heap.length + 1, (w.specs.getD s fun _ => 0) .grouping, w.heap.length, fun _ => w.heap.length⟩
          ((w.specs.getD s fun _ => 0) .grouping) hg ⟨by show w.heap.length + 1 ≠ a; omega, by show w.heap.length ≠ a; omega, h.2.1⟩
        · exact ⟨key.1, key.2.trans (content_append hl)⟩
        · intro i o ho
          rw [List.getElem?_append] at ho
          split_ifs at ho with hi
          · exact hs.obs i o ho
          · rw [List.getElem?_singleton] at ho
            split_ifs at ho
            obtain rfl := Option.some.inj ho
            exact ⟨hg, by show w.heap.length + 1 ≠ a; omega, by show w.heap.length ≠ a; omega, h.2.1, fun _ f => by show w.heap.length ≠ a; omega⟩
    · exact ⟨hs, rfl⟩
  | setGrouping d g =>
    simp only [step]
    cases ho : w.obs[d]? with
    | none => exact ⟨hs, rfl⟩
    | some o =>
      obtain ⟨a1, a2, a3, a4, a5⟩ := hs.obs d o ho
      cases g with
      | none =>
        refine regroup_safe C hs d o _ ?_ ⟨a2, a3, a4⟩
        have h1 := List.getElem?_eq_getElem a4
        rw [List.getD_eq_getElem?_getD, h1]
        exact (hs.specs _ _ h1).1
      | some b =>
        dsimp only
        split_ifs with hk
        · exact regroup_safe C hs d o b (fun e => hs.known (e ▸ hk)) ⟨a2, a3, a4⟩
        · exact ⟨hs, rfl⟩
  | setErange d e =>
    simp only [step]
    cases ho : w.obs[d]? with
    | none => exact ⟨hs, rfl⟩
    | some o =>
      obtain ⟨a1, a2, a3, a4, a5⟩ := hs.obs d o ho
      dsimp only
      split_ifs with hk
      · unfold rerange
        cases C.erange (content w.heap e) with
        | none => exact ⟨hs, rfl⟩
        | some v =>
          dsimp only
          have key := regroup_safe C (S := S) (D := D) (a := a)
            (w := { w with heap := w.heap ++ [v], obs := w.obs.set d { o with erange := w.heap.length } })
            ⟨by simp only [List.length_append]; omega, hs.known, hs.specs, hs.resps, ?_⟩ d { o with erange := w.heap.length } o.grouping a1
            ⟨a2, by show w.heap.length ≠ a; omega, a4⟩
          · exact ⟨key.1, key.2.trans (content_append hl)⟩
          · intro i o' hi
            rw [List.getElem?_set] at hi
            split_ifs at hi with e1 e2
            · obtain rfl := Option.some.inj hi
              subst e1
              exact ⟨a1, a2, by show w.heap.length ≠ a; omega, a4, a5⟩
            · exact hs.obs i o' hi
      · exact ⟨hs, rfl⟩
  | group d m =>
    simp only [step]
    cases ho : w.obs[d]? with
    | none => exact ⟨hs, rfl⟩
    | some o =>
      obtain ⟨a1, a2, a3, a4, a5⟩ := hs.obs d o ho
      dsimp only
      cases C.group m (w.specVals o.spec) (w.respVals o.resp) (o.back.map w.specVals) (content w.heap o.good) (content w.heap o.erange) with
      | none => exact ⟨hs, rfl⟩
      | some v =>
        have key := regroup_safe C (safe_grow hs [v]) d o w.heap.length (by omega) ⟨a2, a3, a4⟩
        exact ⟨key.1, key.2.trans (content_append hl)⟩
  | readSpec s f =>
    simp only [step]
    cases ho : w.specs[s]? with
    | none => exact ⟨hs, rfl⟩
    | some x =>
      refine ⟨⟨hl, ?_, hs.specs, hs.resps, hs.obs⟩, rfl⟩
      simp only [List.mem_cons, not_or]
      exact ⟨((hs.specs s x ho).2 hq f).symm, hs.known⟩
  | readResp r f =>
    simp only [step]
    cases ho : w.resps[r]? with
    | none => exact ⟨hs, rfl⟩
    | some x =>
      refine ⟨⟨hl, ?_, hs.specs, hs.resps, hs.obs⟩, rfl⟩
      simp only [List.mem_cons, not_or]
      exact ⟨(hs.resps x (List.mem_of_getElem? ho) f).symm, hs.known⟩
  | readObs d f =>
    simp only [step]
    cases ho : w.obs[d]? with
    | none => exact ⟨hs, rfl⟩
    | some x =>
      refine ⟨⟨hl, ?_, hs.specs, hs.resps, hs.obs⟩, rfl⟩
      simp only [List.mem_cons, not_or]
      exact ⟨((hs.obs d x ho).2.2.2.2 hq f).symm, hs.known⟩
  | readGrouping d =>
    simp only [step]
    cases ho : w.obs[d]? with
    | none => exact ⟨hs, rfl⟩
    | some x =>
      refine ⟨⟨hl, ?_, hs.specs, hs.resps, hs.obs⟩, rfl⟩
      simp only [List.mem_cons, not_or]
      exact ⟨((hs.obs d x ho).1).symm, hs.known⟩
  | readErange d =>
    simp only [step]
    cases ho : w.obs[d]? with
    | none => exact ⟨hs, rfl⟩
    | some x =>
      refine ⟨⟨hl, ?_, hs.specs, hs.resps, hs.obs⟩, rfl⟩
      simp only [List.mem_cons, not_or]
      exact ⟨((hs.obs d x ho).2.2.1).symm, hs.known⟩
  | readGood d =>
    simp only [step]
    cases ho : w.obs[d]? with
    | none => exact ⟨hs, rfl⟩
    | some x =>
      refine ⟨⟨hl, ?_, hs.specs, hs.resps, hs.obs⟩, rfl⟩
      simp only [List.mem_cons, not_or]
      exact ⟨((hs.obs d x ho).2.1).symm, hs.known⟩
  | fit d =>
    simp only [step]
    cases ho : w.obs[d]? with
    | none => exact ⟨hs, rfl⟩
    | some o =>
      refine ⟨⟨by simp only [place, List.length_append]; omega, hs.known, hs.specs, hs.resps, hs.obs⟩, ?_⟩
      simp only [place, List.append_assoc]
      exact content_append hl

theorem below_heap {n : ℕ} {D : ℕ → Prop} {w : World} (hb : Below n D w) (h : Heap) : Below n D { w with heap := h } :=
  ⟨hb.known, hb.specs, hb.resps, hb.obs⟩

theorem below_known {n : ℕ} {D : ℕ → Prop} {w : World} (hb : Below n D w) {a : ℕ} (ha : a < n) : Below n D { w with known := a :: w.known } :=
  ⟨fun b hm => by
    rcases List.mem_cons.1 hm with rfl | h
    · exact ha
    · exact hb.known b h, hb.specs, hb.resps, hb.obs⟩

/-- The world in which a new data set is put together, before its grouping is set. -/
theorem below_observe {w : World} (hb : Below w.heap.length none' w) {D : ℕ → Prop} {n : ℕ} (hn : w.heap.length + 2 ≤ n) (h : Heap) (o : Obs)
    (h1 : o.grouping < n ∧ o.good < n ∧ o.erange < n ∧ o.spec < w.specs.length ∧ (¬ D w.obs.length → ∀ f, o.refs f < n)) :
    Below n D { w with heap := h, obs := w.obs ++ [o] } := by
  have hb' := below_mono (show w.heap.length ≤ n by omega) hb
  refine ⟨hb'.known, hb'.specs, hb'.resps, fun i o' hi => ?_⟩
  rw [List.getElem?_append] at hi
  split_ifs at hi with hlt
  · obtain ⟨a1, a2, a3, a4, a5⟩ := hb'.obs i o' hi
    exact ⟨a1, a2, a3, a4, fun _ => a5 id⟩
  · rw [List.getElem?_singleton] at hi
    split_ifs at hi with h0
    obtain rfl := Option.some.inj hi
    have : i = w.obs.length := by omega
    subst this
    exact h1

theorem step_bounded (C : Calc) {w : World} (hb : Below w.heap.length none' w) (op : Op) :
    Below (step C w op).heap.length none' (step C w op) := by
  have up : ∀ t : Heap, Below (w.heap ++ t).length none' { w with heap := w.heap ++ t } := fun t =>
    below_heap (below_mono (by simp) hb) _
  cases op with
  | make v =>
    have h1 := up [v]
    have h2 := below_known h1 (a := w.heap.length) (by simp)
    exact h2
  | write b i x =>
    simp only [step]
    split_ifs with h
    · rw [show ({ w with heap := w.heap.set b ((content w.heap b).set i x) } : World).heap.length = w.heap.length from by simp]
      exact below_heap hb _
    · exact hb
  | spectrum args =>
    simp only [step]
    split_ifs with h
    · cases C.spectrum fun f => content w.heap (args f) with
      | none => exact hb
      | some v =>
        have h1 := up (SField.all.map v)
        refine ⟨h1.known, ?_, h1.resps, ?_⟩
        · intro x hx f
          simp only [List.mem_append, List.mem_singleton] at hx
          rcases hx with hx | rfl
          · exact h1.specs x hx f
          · simp only [place, List.length_append, List.length_map]
            have : SField.all.idxOf f < SField.all.length := by cases f <;> decide
            omega
        · intro i o ho
          obtain ⟨a1, a2, a3, a4, a5⟩ := h1.obs i o ho
          exact ⟨a1, a2, a3, by simp only [List.length_append]; exact Nat.lt_add_right _ a4, a5⟩
    · exact hb
  | response args sparse =>
    simp only [step]
    split_ifs with h
    · cases C.response fun f => content w.heap (args f) with
      | none => exact hb
      | some v =>
        have h1 := up (RField.all.map v)
        refine ⟨h1.known, h1.specs, ?_, h1.obs⟩
        intro x hx f
        simp only [List.mem_append, List.mem_singleton] at hx
        rcases hx with hx | rfl
        · exact h1.resps x hx f
        · have hk := hb.known _ (h f (by cases f <;> decide))
          simp only [place, List.length_append, List.length_map]
          have : RField.all.idxOf f < RField.all.length := by cases f <;> decide
          split_ifs <;> omega
    · exact hb
  | observe s r b e =>
    simp only [step]
    split_ifs with h
    · cases C.erange (content w.heap e) with
      | none => exact hb
      | some v =>
        dsimp only
        have hg := hb.specs _ (getD_mem (z := fun _ => 0) h.2.1) .grouping
        refine regroup_bounded C ?_ _ _ _ ?_ ?_
        · refine below_observe hb (by simp) _ _ ⟨?_, ?_, ?_, h.2.1, fun _ f => ?_⟩ <;> simp only [List.length_append, List.length_cons, List.length_nil] <;> omega
        · simp only [List.length_append]; omega
        · refine ⟨?_, ?_, h.2.1⟩ <;> simp
    · exact hb
  | setGrouping d g =>
    simp only [step]
    cases ho : w.obs[d]? with
    | none => exact hb
    | some o =>
      obtain ⟨a1, a2, a3, a4, a5⟩ := hb.obs d o ho
      cases g with
      | none => exact regroup_bounded C hb d o _ (hb.specs _ (getD_mem a4) .grouping) ⟨a2, a3, a4⟩
      | some b =>
        dsimp only
        split_ifs with hk
        · exact regroup_bounded C hb d o b (hb.known b hk) ⟨a2, a3, a4⟩
        · exact hb
  | setErange d e =>
    simp only [step]
    cases ho : w.obs[d]? with
    | none => exact hb
    | some o =>
      obtain ⟨a1, a2, a3, a4, a5⟩ := hb.obs d o ho
      dsimp only
      split_ifs with hk
      · unfold rerange
        cases C.erange (content w.heap e) with
        | none => exact hb
        | some v =>
          dsimp only
          have h1 := up [v]
          refine regroup_bounded C (w := { w with heap := w.heap ++ [v], obs := w.obs.set d { o with erange := w.heap.length } })
            ⟨h1.known, h1.specs, h1.resps, ?_⟩ d { o with erange := w.heap.length } o.grouping ?_ ⟨?_, ?_, a4⟩
          · intro i o' hi
            rw [List.getElem?_set] at hi
            split_ifs at hi with e1 e2
            · obtain rfl := Option.some.inj hi
              subst e1
              obtain ⟨b1, b2, b3, b4, b5⟩ := h1.obs _ o ho
              exact ⟨b1, b2, by simp, b4, b5⟩
            · exact h1.obs i o' hi
          · simp only [List.length_append]; omega
          · simp only [List.length_append]; omega
          · simp
      · exact hb
  | group d m =>
    simp only [step]
    cases ho : w.obs[d]? with
    | none => exact hb
    | some o =>
      obtain ⟨a1, a2, a3, a4, a5⟩ := hb.obs d o ho
      dsimp only
      cases C.group m (w.specVals o.spec) (w.respVals o.resp) (o.back.map w.specVals) (content w.heap o.good) (content w.heap o.erange) with
      | none => exact hb
      | some v =>
        refine regroup_bounded C (up [v]) d o w.heap.length (by simp) ⟨?_, ?_, a4⟩ <;> simp only [List.length_append] <;> omega
  | readSpec s f =>
    simp only [step]
    cases ho : w.specs[s]? with
    | none => exact hb
    | some x => exact below_known hb (hb.specs x (List.mem_of_getElem? ho) f)
  | readResp r f =>
    simp only [step]
    cases ho : w.resps[r]? with
    | none => exact hb
    | some x => exact below_known hb (hb.resps x (List.mem_of_getElem? ho) f)
  | readObs d f =>
    simp only [step]
    cases ho : w.obs[d]? with
    | none => exact hb
    | some x => exact below_known hb ((hb.obs d x ho).2.2.2.2 id f)
  | readGrouping d =>
    simp only [step]
    cases ho : w.obs[d]? with
    | none => exact hb
    | some x => exact below_known hb (hb.obs d x ho).1
  | readErange d =>
    simp only [step]
    cases ho : w.obs[d]? with
    | none => exact hb
    | some x => exact below_known hb (hb.obs d x ho).2.2.1
  | readGood d =>
    simp only [step]
    cases ho : w.obs[d]? with
    | none => exact hb
    | some x => exact below_known hb (hb.obs d x ho).2.1
  | fit d =>
    simp only [step]
    cases ho : w.obs[d]? with
    | none => exact hb
    | some o =>
      have h1 := up (DField.all.map (fun f => content w.heap (o.refs f)) ++ [w.respVals o.resp .photons])
      rw [← List.append_assoc] at h1
      exact ⟨h1.known, h1.specs, h1.resps, h1.obs⟩

theorem run_bounded (C : Calc) (ops : List Op) : Below (run C .empty ops).heap.length none' (run C .empty ops) := by
  induction ops using List.reverseRecOn with
  | nil => exact ⟨by simp [run, World.empty], by simp [run, World.empty], by simp [run, World.empty], by simp [run, World.empty]⟩
  | append_singleton l op ih =>
    have : run C .empty (l ++ [op]) = step C (run C .empty l) op := by simp [run]
    rw [this]
    exact step_bounded C ih op

theorem run_append (C : Calc) (w : World) (a b : List Op) : run C w (a ++ b) = run C (run C w a) b := by simp [run]

theorem run_safe (C : Calc) {S D : ℕ → Prop} {w : World} {a : ℕ} (hs : Safe S D w a) (ops : List Op) (hq : ∀ op ∈ ops, Quiet S D op) :
    Safe S D (run C w ops) a ∧ content (run C w ops).heap a = content w.heap a := by
  induction ops generalizing w with
  | nil => exact ⟨hs, rfl⟩
  | cons op l ih =>
    have h1 := step_safe C hs op (hq op List.mem_cons_self)
    have h2 := ih h1.1 fun o ho => hq o (List.mem_cons_of_mem _ ho)
    exact ⟨h2.1, h2.2.trans h1.2⟩

/-! ## What is kept -/

theorem regroup_lists (C : Calc) (w : World) (d : ℕ) (o : Obs) (g : ℕ) :
    (regroup C w d o g).specs = w.specs ∧ (regroup C w d o g).fits = w.fits ∧
      ∀ i, i ≠ d → (regroup C w d o g).obs[i]? = w.obs[i]? := by
  rcases regroup_cases C w d o g with ⟨h, hlen⟩ | ⟨v, refs, h, hr⟩
  · rw [h]; exact ⟨rfl, rfl, fun _ _ => rfl⟩
  · rw [h]
    exact ⟨rfl, rfl, fun i hi => List.getElem?_set_ne (Ne.symm hi)⟩

/-- The operations that set the grouping or the energy range of the data set `d`. -/
def Changes (d : ℕ) : Op → Prop
  | .setGrouping k _ => k = d
  | .setErange k _ => k = d
  | .group k _ => k = d
  | _ => False

theorem step_lists (C : Calc) (w : World) (op : Op) :
    (∃ t, (step C w op).specs = w.specs ++ t ∧ (t = [] ∨ ∃ v, (step C w op).heap = w.heap ++ SField.all.map v ∧
      t = [fun f => w.heap.length + SField.all.idxOf f] ∧ (step C w op).known = w.known ∧ (step C w op).resps = w.resps ∧ (step C w op).obs = w.obs)) ∧
    (∃ t, (step C w op).fits = w.fits ++ t ∧ (t = [] ∨ ∃ v o d, op = .fit d ∧ w.obs[d]? = some o ∧ (step C w op).known = w.known ∧
      (step C w op).specs = w.specs ∧ (step C w op).resps = w.resps ∧ (step C w op).obs = w.obs ∧
      (step C w op).heap = w.heap ++ DField.all.map (fun f => content w.heap (o.refs f)) ++ [v] ∧
      t = [⟨fun f => w.heap.length + DField.all.idxOf f, w.heap.length + 18⟩])) ∧
    (∀ d o, w.obs[d]? = some o → ¬ Changes d op → (step C w op).obs[d]? = some o) := by
  have same : ∀ (w' : World), step C w op = w' → w'.specs = w.specs → w'.fits = w.fits →
      (∀ d o, w.obs[d]? = some o → ¬ Changes d op → w'.obs[d]? = some o) →
      (∃ t, (step C w op).specs = w.specs ++ t ∧ (t = [] ∨ ∃ v, (step C w op).heap = w.heap ++ SField.all.map v ∧
        t = [fun f => w.heap.length + SField.all.idxOf f] ∧ (step C w op).known = w.known ∧ (step C w op).resps = w.resps ∧ (step C w op).obs = w.obs)) ∧
      (∃ t, (step C w op).fits = w.fits ++ t ∧ (t = [] ∨ ∃ v o d, op = .fit d ∧ w.obs[d]? = some o ∧ (step C w op).known = w.known ∧
        (step C w op).specs = w.specs ∧ (step C w op).resps = w.resps ∧ (step C w op).obs = w.obs ∧
        (step C w op).heap = w.heap ++ DField.all.map (fun f => content w.heap (o.refs f)) ++ [v] ∧
        t = [⟨fun f => w.heap.length + DField.all.idxOf f, w.heap.length + 18⟩])) ∧
      (∀ d o, w.obs[d]? = some o → ¬ Changes d op → (step C w op).obs[d]? = some o) := by
    intro w' he h1 h2 h3
    rw [he]
    exact ⟨⟨[], by rw [h1, List.append_nil], Or.inl rfl⟩, ⟨[], by rw [h2, List.append_nil], Or.inl rfl⟩, h3⟩
  have keep : step C w op = w → _ := fun he => same w he rfl rfl (fun _ _ h _ => h)
  cases op with
  | make v => exact same _ rfl rfl rfl (fun _ _ h _ => h)
  | write b i x =>
    by_cases h : w.knows b
    · exact same _ (if_pos h) rfl rfl (fun _ _ h _ => h)
    · exact keep (if_neg h)
  | spectrum args =>
    by_cases h : ∀ f ∈ SField.all, w.knows (args f)
    · cases hc : C.spectrum fun f => content w.heap (args f) with
      | none => exact keep (by simp only [step, if_pos h, hc])
      | some v =>
        have he : step C w (.spectrum args) = { w with heap := w.heap ++ SField.all.map v, specs := w.specs ++ [fun f => w.heap.length + SField.all.idxOf f] } := by
          simp only [step, if_pos h, hc, place]
        rw [he]
        exact ⟨⟨_, rfl, Or.inr ⟨v, rfl, rfl, rfl, rfl, rfl⟩⟩, ⟨[], (List.append_nil _).symm, Or.inl rfl⟩, fun _ _ h _ => h⟩
    · exact keep (if_neg h)
  | response args sparse =>
    by_cases h : ∀ f ∈ RField.all, w.knows (args f)
    · cases hc : C.response fun f => content w.heap (args f) with
      | none => exact keep (by simp only [step, if_pos h, hc])
      | some v =>
        exact same { w with heap := (place w.heap RField.all v).1, resps := w.resps ++ [fun f => if sparse = true ∧ f = .matrix then args f else (place w.heap RField.all v).2 f] }
          (by simp only [step, if_pos h, hc]) rfl rfl (fun _ _ h _ => h)
    · exact keep (if_neg h)
  | observe s r b e =>
    by_cases h : w.knows e ∧ s < w.specs.length ∧ r < w.resps.length ∧ (∀ k ∈ b, k < w.specs.length) ∧
        (w.specVals s .grouping).length = (w.respVals r .names).length
    · cases hc : C.erange (content w.heap e) with
      | none => exact keep (by simp only [step, if_pos h, hc])
      | some v =>
        refine same _ (by simp only [step, if_pos h, hc]; rfl) ?_ ?_ ?_
        · exact (regroup_lists C _ _ _ _).1
        · exact (regroup_lists C _ _ _ _).2.1
        · intro d o hd _
          have hlt : d < w.obs.length := (List.getElem?_eq_some_iff.1 hd).1
          rw [(regroup_lists C _ _ _ _).2.2 d (by omega)]
          show (w.obs ++ _)[d]? = _
          rw [List.getElem?_append_left hlt, hd]
    · exact keep (if_neg h)
  | setGrouping d g =>
    cases ho : w.obs[d]? with
    | none => exact keep (by simp only [step, ho])
    | some o =>
      have hch : ∀ k, ¬ Changes k (.setGrouping d g) → k ≠ d := fun k h e => h e.symm
      cases g with
      | none =>
        refine same _ (by simp only [step, ho]; rfl) (regroup_lists C w d o _).1 (regroup_lists C w d o _).2.1 ?_
        intro k o' hk hc
        rw [(regroup_lists C w d o _).2.2 k (hch k hc), hk]
      | some b =>
        by_cases h : w.knows b
        · refine same _ (by simp only [step, ho, if_pos h]) (regroup_lists C w d o b).1 (regroup_lists C w d o b).2.1 ?_
          intro k o' hk hc
          rw [(regroup_lists C w d o b).2.2 k (hch k hc), hk]
        · exact keep (by simp only [step, ho, if_neg h])
  | setErange d e =>
    cases ho : w.obs[d]? with
    | none => exact keep (by simp only [step, ho])
    | some o =>
      have hch : ∀ k, ¬ Changes k (.setErange d e) → k ≠ d := fun k h e => h e.symm
      by_cases h : w.knows e
      · cases hc : C.erange (content w.heap e) with
        | none => exact keep (by simp only [step, ho, if_pos h, rerange, hc])
        | some v =>
          refine same _ (by simp only [step, ho, if_pos h, rerange, hc]; rfl) ?_ ?_ ?_
          · exact (regroup_lists C _ _ _ _).1
          · exact (regroup_lists C _ _ _ _).2.1
          · intro k o' hk hc'
            rw [(regroup_lists C _ _ _ _).2.2 k (hch k hc')]
            show (w.obs.set d _)[k]? = _
            rw [List.getElem?_set_ne (Ne.symm (hch k hc')), hk]
      · exact keep (by simp only [step, ho, if_neg h])
  | group d m =>
    cases ho : w.obs[d]? with
    | none => exact keep (by simp only [step, ho])
    | some o =>
      have hch : ∀ k, ¬ Changes k (.group d m) → k ≠ d := fun k h e => h e.symm
      cases hc : C.group m (w.specVals o.spec) (w.respVals o.resp) (o.back.map w.specVals) (content w.heap o.good) (content w.heap o.erange) with
      | none => exact keep (by simp only [step, ho, hc])
      | some v =>
        refine same _ (by simp only [step, ho, hc]; rfl) ?_ ?_ ?_
        · exact (regroup_lists C _ _ _ _).1
        · exact (regroup_lists C _ _ _ _).2.1
        · intro k o' hk hc'
          rw [(regroup_lists C _ _ _ _).2.2 k (hch k hc')]
          exact hk
  | readSpec s f =>
    cases ho : w.specs[s]? with
    | none => exact keep (by simp only [step, ho])
    | some x => exact same { w with known := x f :: w.known } (by simp only [step, ho]) rfl rfl (fun _ _ h _ => h)
  | readResp r f =>
    cases ho : w.resps[r]? with
    | none => exact keep (by simp only [step, ho])
    | some x => exact same { w with known := x f :: w.known } (by simp only [step, ho]) rfl rfl (fun _ _ h _ => h)
  | readObs d f =>
    cases ho : w.obs[d]? with
    | none => exact keep (by simp only [step, ho])
    | some x => exact same { w with known := x.refs f :: w.known } (by simp only [step, ho]) rfl rfl (fun _ _ h _ => h)
  | readGrouping d =>
    cases ho : w.obs[d]? with
    | none => exact keep (by simp only [step, ho])
    | some x => exact same { w with known := x.grouping :: w.known } (by simp only [step, ho]) rfl rfl (fun _ _ h _ => h)
  | readErange d =>
    cases ho : w.obs[d]? with
    | none => exact keep (by simp only [step, ho])
    | some x => exact same { w with known := x.erange :: w.known } (by simp only [step, ho]) rfl rfl (fun _ _ h _ => h)
  | readGood d =>
    cases ho : w.obs[d]? with
    | none => exact keep (by simp only [step, ho])
    | some x => exact same { w with known := x.good :: w.known } (by simp only [step, ho]) rfl rfl (fun _ _ h _ => h)
  | fit d =>
    cases ho : w.obs[d]? with
    | none => exact keep (by simp only [step, ho])
    | some o =>
      have he : step C w (.fit d) = { w with
          heap := w.heap ++ DField.all.map (fun f => content w.heap (o.refs f)) ++ [w.respVals o.resp .photons]
          fits := w.fits ++ [⟨fun f => w.heap.length + DField.all.idxOf f, w.heap.length + 18⟩] } := by
        simp only [step, ho, place, List.length_append, List.length_map, all_length]
      rw [he]
      exact ⟨⟨[], (List.append_nil _).symm, Or.inl rfl⟩,
        ⟨_, rfl, Or.inr ⟨w.respVals o.resp .photons, o, d, rfl, ho, rfl, rfl, rfl, rfl, rfl, rfl⟩⟩, fun _ _ h _ => h⟩

/-! ## C137 -/

/-- The history up to now. -/
def past (C : Calc) (ops : List Op) : World := run C .empty ops

theorem past_append (C : Calc) (a b : List Op) : past C (a ++ b) = run C (past C a) b := run_append C .empty a b

/-- **C137** (a fit takes a copy).  A fit of a data set holds the values the grouped arrays of the data set have at that moment. -/
theorem C137_taken (C : Calc) (ops : List Op) (d : ℕ) (o : Obs) (ho : (past C ops).obs[d]? = some o) :
    ∃ x, (past C (ops ++ [.fit d])).fits = (past C ops).fits ++ [x] ∧
      ∀ f, content (past C (ops ++ [.fit d])).heap (x.data f) = content (past C ops).heap (o.refs f) := by
  rw [past_append]
  generalize past C ops = w at *
  have he : run C w [.fit d] = { w with
      heap := w.heap ++ DField.all.map (fun f => content w.heap (o.refs f)) ++ [w.respVals o.resp .photons]
      fits := w.fits ++ [⟨fun f => w.heap.length + DField.all.idxOf f, w.heap.length + 18⟩] } := by
    simp only [run, List.foldl_cons, List.foldl_nil, step, ho, place, List.length_append, List.length_map, all_length]
  rw [he]
  refine ⟨_, rfl, fun f => ?_⟩
  have hi : DField.all[DField.all.idxOf f]? = some f := by cases f <;> rfl
  have hlt : DField.all.idxOf f < DField.all.length := by cases f <;> decide
  simp only [content, List.getD_eq_getElem?_getD, List.append_assoc]
  rw [List.getElem?_append_right (Nat.le_add_right _ _), Nat.add_sub_cancel_left, List.getElem?_append_left (by simpa using hlt), List.getElem?_map, hi]
  rfl

theorem fits_safe (C : Calc) (ops : List Op) : ∀ x ∈ (past C ops).fits, (∀ f, Safe none' none' (past C ops) (x.data f)) ∧ Safe none' none' (past C ops) x.photons := by
  induction ops using List.reverseRecOn with
  | nil => simp [past, run, World.empty]
  | append_singleton l op ih =>
    rw [past_append]
    show ∀ x ∈ (step C (past C l) op).fits, (∀ f, Safe none' none' (step C (past C l) op) (x.data f)) ∧ Safe none' none' (step C (past C l) op) x.photons
    have hb := run_bounded C l
    rw [show run C .empty l = past C l from rfl] at hb
    generalize past C l = w at *
    have hq : Quiet none' none' op := by cases op <;> simp [Quiet, none']
    obtain ⟨-, ⟨t, ht, h⟩, -⟩ := step_lists C w op
    intro x hx
    rw [ht, List.mem_append] at hx
    rcases hx with hx | hx
    · exact ⟨fun f => (step_safe C ((ih x hx).1 f) op hq).1, (step_safe C (ih x hx).2 op hq).1⟩
    · rcases h with rfl | ⟨v, o, d, -, -, e1, e2, e3, e4, e5, rfl⟩
      · simp at hx
      · obtain rfl := List.mem_singleton.1 hx
        have hb' : Below w.heap.length none' (step C w op) :=
          ⟨by rw [e1]; exact hb.known, by rw [e2]; exact hb.specs, by rw [e3]; exact hb.resps, by rw [e4, e2]; exact hb.obs⟩
        have hlen : (step C w op).heap.length = w.heap.length + 18 + 1 := by
          rw [e5]; simp [all_length]
        refine ⟨fun f => safe_of_below hb' (Nat.le_add_right _ _) ?_ _, safe_of_below hb' (Nat.le_add_right _ _) ?_ _⟩
        · have hlt : DField.all.idxOf f < 18 := by cases f <;> decide
          rw [hlen]
          show w.heap.length + _ < _
          omega
        · rw [hlen]; exact Nat.lt_succ_self _

theorem run_fits (C : Calc) (w : World) (ops : List Op) : ∃ t, (run C w ops).fits = w.fits ++ t := by
  induction ops generalizing w with
  | nil => exact ⟨[], (List.append_nil _).symm⟩
  | cons op l ih =>
    obtain ⟨-, ⟨t, ht, -⟩, -⟩ := step_lists C w op
    obtain ⟨t', ht'⟩ := ih (step C w op)
    exact ⟨t ++ t', by show (run C (step C w op) l).fits = _; rw [ht', ht, List.append_assoc]⟩

/-- **C137** (a fit is fixed when it is made).  Whatever happens after a fit has been made - grouping or ranging its data anew, writing into
any array that was used to build the data or that any attribute of any object hands out, making further objects - the arrays of
the fit keep their values. -/
theorem C137_fit (C : Calc) (before after : List Op) (k : ℕ) (x : Fixed) (hx : (past C before).fits[k]? = some x) :
    (past C (before ++ after)).fits[k]? = some x ∧
    (∀ f, content (past C (before ++ after)).heap (x.data f) = content (past C before).heap (x.data f)) ∧
    content (past C (before ++ after)).heap x.photons = content (past C before).heap x.photons := by
  rw [past_append]
  have hs := fits_safe C before x (List.mem_of_getElem? hx)
  have hq : ∀ op ∈ after, Quiet none' none' op := fun op _ => by cases op <;> simp [Quiet, none']
  obtain ⟨t, ht⟩ := run_fits C (past C before) after
  refine ⟨?_, fun f => (run_safe C (hs.1 f) after hq).2, (run_safe C hs.2 after hq).2⟩
  rw [ht, List.getElem?_append_left (List.getElem?_eq_some_iff.1 hx).1, hx]

theorem specs_safe (C : Calc) (s : ℕ) (ops : List Op) (hq : ∀ op ∈ ops, ∀ f, op ≠ .readSpec s f) (x : SField → ℕ)
    (hx : (past C ops).specs[s]? = some x) (f : SField) (hf : f ≠ .grouping) : Safe (· = s) none' (past C ops) (x f) := by
  induction ops using List.reverseRecOn with
  | nil => simp [past, run, World.empty] at hx
  | append_singleton l op ih =>
    rw [past_append] at hx ⊢
    replace hx : (step C (past C l) op).specs[s]? = some x := hx
    show Safe _ _ (step C (past C l) op) _
    have hb := run_bounded C l
    rw [show run C .empty l = past C l from rfl] at hb
    have ih' := ih fun o ho => hq o (List.mem_append_left _ ho)
    clear ih
    generalize past C l = w at *
    have hqo : Quiet (· = s) none' op := by
      have := hq op (by simp)
      cases op <;> simp [Quiet, none'] at this ⊢
      exact this
    obtain ⟨⟨t, ht, h⟩, -, -⟩ := step_lists C w op
    rw [ht, List.getElem?_append] at hx
    split_ifs at hx with hlt
    · exact (step_safe C (ih' hx) op hqo).1
    · rcases h with rfl | ⟨v, e5, rfl, e1, e3, e4⟩
      · simp at hx
      · rw [List.getElem?_singleton] at hx
        split_ifs at hx with h0
        obtain rfl := Option.some.inj hx
        have hs : s = w.specs.length := by omega
        have hidx : SField.all.idxOf f < 6 := by cases f <;> decide
        have hne : SField.all.idxOf f ≠ SField.all.idxOf .grouping := by revert hf; cases f <;> decide
        have hlen : (step C w op).heap.length = w.heap.length + 6 := by rw [e5]; simp [SField.all]
        refine ⟨by rw [hlen]; show w.heap.length + _ < _; omega, ?_, ?_, ?_, ?_⟩
        · rw [e1]
          intro hk
          have : w.heap.length + SField.all.idxOf f < w.heap.length := hb.known _ hk
          omega
        · intro i y hy
          rw [ht, List.getElem?_append] at hy
          split_ifs at hy with hi
          · have := hb.specs y (List.mem_of_getElem? hy)
            exact ⟨by have := this .grouping; show _ ≠ w.heap.length + _; omega, fun _ f' => by have := this f'; show _ ≠ w.heap.length + _; omega⟩
          · rw [List.getElem?_singleton] at hy
            split_ifs at hy with h1
            obtain rfl := Option.some.inj hy
            refine ⟨by show w.heap.length + _ ≠ w.heap.length + _; omega, fun hi' => absurd ?_ hi'⟩
            show i = s
            omega
        · rw [e3]
          intro y hy f'
          have := hb.resps y hy f'
          show _ ≠ w.heap.length + _
          omega
        · rw [e4, ht]
          intro i o ho
          obtain ⟨b1, b2, b3, b4, b5⟩ := hb.obs i o ho
          refine ⟨?_, ?_, ?_, by simp only [List.length_append]; omega, fun _ f' => ?_⟩
          · show _ ≠ w.heap.length + _; omega
          · show _ ≠ w.heap.length + _; omega
          · show _ ≠ w.heap.length + _; omega
          · have := b5 id f'
            show _ ≠ w.heap.length + _; omega

theorem run_specs (C : Calc) (w : World) (ops : List Op) : ∃ t, (run C w ops).specs = w.specs ++ t := by
  induction ops generalizing w with
  | nil => exact ⟨[], (List.append_nil _).symm⟩
  | cons op l ih =>
    obtain ⟨⟨t, ht, -⟩, -, -⟩ := step_lists C w op
    obtain ⟨t', ht'⟩ := ih (step C w op)
    exact ⟨t ++ t', by show (run C (step C w op) l).specs = _; rw [ht', ht, List.append_assoc]⟩

/-- **C137** (spectra).  As long as no array of a spectrum has been asked for, nothing changes its counts, errors, qualities and scales: not
writing into the arrays it was made from, not grouping or fitting data sets it belongs to. -/
theorem C137_spectrum (C : Calc) (before after : List Op) (s : ℕ) (x : SField → ℕ) (hx : (past C before).specs[s]? = some x)
    (hq : ∀ op ∈ before ++ after, ∀ f, op ≠ .readSpec s f) :
    (past C (before ++ after)).specs[s]? = some x ∧
    ∀ f, f ≠ .grouping → content (past C (before ++ after)).heap (x f) = content (past C before).heap (x f) := by
  rw [past_append]
  obtain ⟨t, ht⟩ := run_specs C (past C before) after
  refine ⟨by rw [ht, List.getElem?_append_left (List.getElem?_eq_some_iff.1 hx).1, hx], fun f hf => ?_⟩
  have hs := specs_safe C s before (fun op ho => hq op (List.mem_append_left _ ho)) x hx f hf
  refine (run_safe C hs after fun op ho => ?_).2
  have := hq op (List.mem_append_right _ ho)
  cases op <;> simp [Quiet, none'] at this ⊢
  exact this

theorem below_weaken {n : ℕ} {D : ℕ → Prop} {w : World} (hb : Below n none' w) : Below n D w :=
  ⟨hb.known, hb.specs, hb.resps, fun i o ho => by
    obtain ⟨a1, a2, a3, a4, a5⟩ := hb.obs i o ho
    exact ⟨a1, a2, a3, a4, fun _ => a5 id⟩⟩

/-- The grouped arrays of a data set after its grouping has been set: as before if it was refused, else new. -/
theorem regroup_new (C : Calc) {w : World} (hb : Below w.heap.length none' w) (d : ℕ) (o : Obs) (g : ℕ) (hg : g < w.heap.length)
    (ho : o.good < w.heap.length ∧ o.erange < w.heap.length ∧ o.spec < w.specs.length) (o' : Obs)
    (h' : (regroup C w d o g).obs[d]? = some o') :
    (w.obs[d]? = some o' ∧ (content w.heap g).length ≠ (w.respVals o.resp .names).length) ∨ (Below w.heap.length (· = d) (regroup C w d o g) ∧
      ∀ f, w.heap.length ≤ o'.refs f ∧ o'.refs f < (regroup C w d o g).heap.length) := by
  have hbel := regroup_below C (le_refl w.heap.length) (below_weaken (D := (· = d)) hb) d o g hg ho rfl
  rcases regroup_cases C w d o g with ⟨h, hlen⟩ | ⟨v, refs, h, hr⟩
  · left; rw [h] at h'; exact ⟨h', hlen⟩
  · right
    refine ⟨hbel, ?_⟩
    rw [h] at h' ⊢
    rw [List.getElem?_set] at h'
    split_ifs at h' with e1
    · obtain rfl := Option.some.inj h'
      intro f
      refine ⟨(hr f).1, ?_⟩
      simp only [List.length_append, List.length_map, reset_length, all_length]
      exact (hr f).2
    · exact absurd rfl e1

theorem step_obs (C : Calc) {w : World} (hb : Below w.heap.length none' w) (op : Op) (d : ℕ) (o' : Obs) (h' : (step C w op).obs[d]? = some o') :
    (∃ o, w.obs[d]? = some o ∧ o.refs = o'.refs) ∨ ∃ n, Below n (· = d) (step C w op) ∧ ∀ f, n ≤ o'.refs f ∧ o'.refs f < (step C w op).heap.length := by
  by_cases hc : ¬ Changes d op ∧ ∃ o, w.obs[d]? = some o
  · obtain ⟨h1, o, h2⟩ := hc
    have := (step_lists C w op).2.2 d o h2 h1
    rw [h'] at this
    obtain rfl := Option.some.inj this
    exact Or.inl ⟨_, h2, rfl⟩
  have up : ∀ t : Heap, Below (w.heap ++ t).length none' { w with heap := w.heap ++ t } := fun t =>
    below_heap (below_mono (by simp) hb) _
  have keep : w.obs[d]? = some o' → ∃ o, w.obs[d]? = some o ∧ o.refs = o'.refs := fun h => ⟨o', h, rfl⟩
  cases op with
  | setGrouping k g =>
    simp only [step] at h' ⊢
    cases ho : w.obs[k]? with
    | none => simp only [ho] at h'; exact Or.inl (keep h')
    | some o =>
      obtain ⟨a1, a2, a3, a4, a5⟩ := hb.obs k o ho
      simp only [ho] at h' ⊢
      by_cases hk : k = d
      · subst hk
        cases g with
        | none =>
          rcases regroup_new C hb k o _ (hb.specs _ (getD_mem a4) .grouping) ⟨a2, a3, a4⟩ o' h' with ⟨h, -⟩ | h
          · exact Or.inl (keep h)
          · exact Or.inr ⟨_, h⟩
        | some b =>
          dsimp only at h' ⊢
          split_ifs at h' ⊢ with hkn
          · rcases regroup_new C hb k o b (hb.known b hkn) ⟨a2, a3, a4⟩ o' h' with ⟨h, -⟩ | h
            · exact Or.inl (keep h)
            · exact Or.inr ⟨_, h⟩
          · exact Or.inl (keep h')
      · exfalso
        apply hc
        refine ⟨hk, ?_⟩
        cases g with
        | none => exact ⟨o', by rw [← (regroup_lists C w k o _).2.2 d (Ne.symm hk)]; exact h'⟩
        | some b =>
          dsimp only at h'
          split_ifs at h'
          · exact ⟨o', by rw [← (regroup_lists C w k o _).2.2 d (Ne.symm hk)]; exact h'⟩
          · exact ⟨o', h'⟩
  | setErange k e =>
    simp only [step] at h' ⊢
    cases ho : w.obs[k]? with
    | none => simp only [ho] at h'; exact Or.inl (keep h')
    | some o =>
      obtain ⟨a1, a2, a3, a4, a5⟩ := hb.obs k o ho
      simp only [ho] at h' ⊢
      split_ifs at h' ⊢ with hkn
      · unfold rerange at h' ⊢
        cases hv : C.erange (content w.heap e) with
        | none => simp only [hv] at h'; exact Or.inl (keep h')
        | some v =>
          simp only [hv] at h' ⊢
          by_cases hk : k = d
          · subst hk
            have h1 := up [v]
            have hB : Below ({ w with heap := w.heap ++ [v], obs := w.obs.set k { o with erange := w.heap.length } } : World).heap.length none'
                { w with heap := w.heap ++ [v], obs := w.obs.set k { o with erange := w.heap.length } } := by
              refine ⟨h1.known, h1.specs, h1.resps, ?_⟩
              intro i o'' hi
              rw [List.getElem?_set] at hi
              split_ifs at hi with e1 e2
              · obtain rfl := Option.some.inj hi
                subst e1
                obtain ⟨b1, b2, b3, b4, b5⟩ := h1.obs _ o ho
                exact ⟨b1, b2, by simp, b4, b5⟩
              · exact h1.obs i o'' hi
            rcases regroup_new C hB k { o with erange := w.heap.length } o.grouping (by simp only [List.length_append]; omega)
              ⟨by simp only [List.length_append]; omega, by simp, a4⟩ o' h' with ⟨h, -⟩ | h
            · left
              rw [List.getElem?_set] at h
              split_ifs at h with e1 e2
              · obtain rfl := Option.some.inj h
                exact ⟨o, ho, rfl⟩
              · exact absurd rfl e1
            · exact Or.inr ⟨_, h⟩
          · exfalso
            apply hc
            refine ⟨hk, o', ?_⟩
            rw [(regroup_lists C _ k _ _).2.2 d (Ne.symm hk)] at h'
            rw [← h']
            exact (List.getElem?_set_ne hk).symm
      · exact Or.inl (keep h')
  | group k m =>
    simp only [step] at h' ⊢
    cases ho : w.obs[k]? with
    | none => simp only [ho] at h'; exact Or.inl (keep h')
    | some o =>
      obtain ⟨a1, a2, a3, a4, a5⟩ := hb.obs k o ho
      simp only [ho] at h' ⊢
      cases hv : C.group m (w.specVals o.spec) (w.respVals o.resp) (o.back.map w.specVals) (content w.heap o.good) (content w.heap o.erange) with
      | none => simp only [hv] at h'; exact Or.inl (keep h')
      | some v =>
        simp only [hv] at h' ⊢
        by_cases hk : k = d
        · subst hk
          rcases regroup_new C (w := { w with heap := w.heap ++ [v] }) (up [v]) k o w.heap.length (by simp)
            ⟨by simp only [List.length_append]; omega, by simp only [List.length_append]; omega, a4⟩ o' h' with ⟨h, -⟩ | h
          · exact Or.inl (keep h)
          · exact Or.inr ⟨_, h⟩
        · exfalso
          apply hc
          refine ⟨hk, o', ?_⟩
          rw [(regroup_lists C _ k _ _).2.2 d (Ne.symm hk)] at h'
          exact h'
  | observe s r b e =>
    by_cases hin : ∃ o, w.obs[d]? = some o
    · exact absurd ⟨id, hin⟩ hc
    simp only [step] at h' ⊢
    split_ifs at h' ⊢ with h
    · cases hv : C.erange (content w.heap e) with
      | none => simp only [hv] at h'; exact Or.inl (keep h')
      | some v =>
        simp only [hv] at h' ⊢
        have hg := hb.specs _ (getD_mem (z := fun _ => 0) h.2.1) .grouping
        have hd : d = w.obs.length := by
          have h1 : w.obs.length ≤ d := by
            by_contra hlt
            exact hin ⟨_, List.getElem?_eq_getElem (not_le.1 hlt)⟩
          by_contra hne
          rw [(regroup_lists C _ _ _ _).2.2 d hne] at h'
          have := (List.getElem?_eq_some_iff.1 h').1
          simp only [List.length_append, List.length_singleton] at this
          omega
        subst hd
        have hB := below_observe hb (D := none') (n := (w.heap ++ [v, C.good (w.specVals s) (b.map w.specVals)]).length) (by simp)
          (w.heap ++ [v, C.good (w.specVals s) (b.map w.specVals)])
          ⟨s, r, b, w.heap.length + 1, (w.specs.getD s fun _ => 0) .grouping, w.heap.length, fun _ => w.heap.length⟩
          ⟨by simp only [List.length_append]; omega, by simp, by simp, h.2.1, fun _ f => by simp⟩
        rcases regroup_new C hB w.obs.length _ ((w.specs.getD s fun _ => 0) .grouping) (by simp only [List.length_append]; omega)
          ⟨by simp, by simp, h.2.1⟩ o' h' with ⟨-, hh⟩ | hh
        · exfalso
          apply hh
          have e1 := content_append (t := [v, C.good (w.specVals s) (b.map w.specVals)]) hg
          have hr := hb.resps _ (getD_mem (z := fun _ => 0) h.2.2.1) .names
          have e2 := content_append (t := [v, C.good (w.specVals s) (b.map w.specVals)]) hr
          show (content (w.heap ++ [v, C.good (w.specVals s) (b.map w.specVals)]) ((w.specs.getD s fun _ => 0) .grouping)).length =
            (content (w.heap ++ [v, C.good (w.specVals s) (b.map w.specVals)]) ((w.resps.getD r fun _ => 0) .names)).length
          rw [e1, e2]
          exact h.2.2.2.2
        · exact Or.inr ⟨_, hh⟩
    · exact Or.inl (keep h')
  | make v => exact Or.inl (keep h')
  | write b i x =>
    simp only [step] at h'
    split_ifs at h' <;> exact Or.inl (keep h')
  | spectrum args =>
    simp only [step] at h'
    split_ifs at h'
    · cases hv : C.spectrum fun f => content w.heap (args f) <;> simp only [hv] at h' <;> exact Or.inl (keep h')
    · exact Or.inl (keep h')
  | response args sp =>
    simp only [step] at h'
    split_ifs at h'
    · cases hv : C.response fun f => content w.heap (args f) <;> simp only [hv] at h' <;> exact Or.inl (keep h')
    · exact Or.inl (keep h')
  | readSpec s f => simp only [step] at h'; cases hv : w.specs[s]? <;> simp only [hv] at h' <;> exact Or.inl (keep h')
  | readResp s f => simp only [step] at h'; cases hv : w.resps[s]? <;> simp only [hv] at h' <;> exact Or.inl (keep h')
  | readObs s f => simp only [step] at h'; cases hv : w.obs[s]? <;> simp only [hv] at h' <;> exact Or.inl (keep h')
  | readGrouping s => simp only [step] at h'; cases hv : w.obs[s]? <;> simp only [hv] at h' <;> exact Or.inl (keep h')
  | readErange s => simp only [step] at h'; cases hv : w.obs[s]? <;> simp only [hv] at h' <;> exact Or.inl (keep h')
  | readGood s => simp only [step] at h'; cases hv : w.obs[s]? <;> simp only [hv] at h' <;> exact Or.inl (keep h')
  | fit s => simp only [step] at h'; cases hv : w.obs[s]? <;> simp only [hv] at h' <;> exact Or.inl (keep h')

theorem obs_safe (C : Calc) (d : ℕ) (ops : List Op) (hq : ∀ op ∈ ops, ∀ f, op ≠ .readObs d f) (o : Obs)
    (ho : (past C ops).obs[d]? = some o) (f : DField) : Safe none' (· = d) (past C ops) (o.refs f) := by
  induction ops using List.reverseRecOn generalizing o with
  | nil => simp [past, run, World.empty] at ho
  | append_singleton l op ih =>
    rw [past_append] at ho ⊢
    replace ho : (step C (past C l) op).obs[d]? = some o := ho
    show Safe _ _ (step C (past C l) op) _
    have hb := run_bounded C l
    rw [show run C .empty l = past C l from rfl] at hb
    have ih' := ih fun o ho => hq o (List.mem_append_left _ ho)
    clear ih
    generalize past C l = w at *
    have hqo : Quiet none' (· = d) op := by
      have := hq op (by simp)
      cases op <;> simp [Quiet, none'] at this ⊢
      exact this
    rcases step_obs C hb op d o ho with ⟨o', h1, h2⟩ | ⟨n, h1, h2⟩
    · rw [← h2]
      exact (step_safe C (ih' o' h1) op hqo).1
    · exact safe_of_below h1 (h2 f).1 (h2 f).2 _

theorem run_obs (C : Calc) (d : ℕ) (o : Obs) (w : World) (ops : List Op) (ho : w.obs[d]? = some o) (hc : ∀ op ∈ ops, ¬ Changes d op) :
    (run C w ops).obs[d]? = some o := by
  induction ops generalizing w with
  | nil => exact ho
  | cons op l ih =>
    exact ih (step C w op) ((step_lists C w op).2.2 d o ho (hc op List.mem_cons_self)) fun o' h' => hc o' (List.mem_cons_of_mem _ h')

/-- **C137** (data sets).  As long as no grouped array of a data set has been asked for, its grouped arrays change only when its own grouping
or energy range is set: not by anything done to other data sets, to the spectra and responses it was made of, or to arrays. -/
theorem C137_dataset (C : Calc) (before after : List Op) (d : ℕ) (o : Obs) (ho : (past C before).obs[d]? = some o)
    (hq : ∀ op ∈ before ++ after, ∀ f, op ≠ .readObs d f) (hc : ∀ op ∈ after, ¬ Changes d op) :
    (past C (before ++ after)).obs[d]? = some o ∧
    ∀ f, content (past C (before ++ after)).heap (o.refs f) = content (past C before).heap (o.refs f) := by
  rw [past_append]
  refine ⟨run_obs C d o _ after ho hc, fun f => ?_⟩
  have hs := obs_safe C d before (fun op h => hq op (List.mem_append_left _ h)) o ho f
  refine (run_safe C hs after fun op h => ?_).2
  have := hq op (List.mem_append_right _ h)
  cases op <;> simp [Quiet, none'] at this ⊢
  exact this

/-! ## Where arrays are shared -/

/-- Counts are summed over groups (base.py:1330-1343), flags are kept with the first reset (base.py:1277-1284), nothing else is computed. -/
def plain : Calc where
  spectrum v := some fun f => if f = .grouping then (if (v f).head? = some (-1) then 1 :: (v f).tail else v f) else v f
  response v := some v
  erange v := some v
  good v _ := (v .counts).map fun _ => 1
  derive s _ _ _ g _ f := if f = .specCounts ∨ f = .netCounts then reduceat (s .counts) (flatnonzero (g.map fun x => decide (x ≠ -1))) else []
  group _ _ _ _ _ _ := none

/-- A spectrum of three channels with counts 1, 2, 3 and no grouping, a response, and a data set without background. -/
def start : List Op :=
  [.make [1, 2, 3], .make [1, 1, 1], .make [0, 0, 0], .make [0, 5], .spectrum (fun f => if f = .counts then 0 else if f = .grouping then 1 else 2),
   .response (fun _ => 2) false, .observe 0 0 none 3]

/-- The counts and the flags of a data set. -/
def countsOf (w : World) (d : ℕ) : Option (List ℤ) := w.obs[d]?.map fun o => content w.heap (o.refs .specCounts)
def flagsOf (w : World) (d : ℕ) : Option (List ℤ) := w.obs[d]?.map fun o => content w.heap o.grouping

/-- **C137** (refuted: the array given).  `set_grouping` keeps the array it is given, and writes to it: an array of flags starting with -1
is changed, and when the user writes into it later, the data are grouped otherwise the next time the energy range is set. -/
theorem C137_argument_refuted : ∃ g : ℕ,
    let w := past plain (start ++ [.make [-1, -1, 1]])
    let w₁ := past plain (start ++ [.make [-1, -1, 1], .setGrouping 0 (some g)])
    let w₂ := past plain (start ++ [.make [-1, -1, 1], .setGrouping 0 (some g), .setErange 0 3])
    let w₃ := past plain (start ++ [.make [-1, -1, 1], .setGrouping 0 (some g), .write g 2 (-1), .setErange 0 3])
    content w.heap g = [-1, -1, 1] ∧ content w₁.heap g = [1, -1, 1] ∧ countsOf w₁ 0 = some [3, 3] ∧ countsOf w₂ 0 = some [3, 3] ∧
    countsOf w₃ 0 = some [6] :=
  ⟨34, by decide +kernel⟩

/-- **C137** (refuted: restoring).  The flags a new data set shows are those of the spectrum itself: after the user has written into
`data.grouping`, `set_grouping(None)` does not restore the flags the spectrum was made with, and another data set of the same spectrum is grouped
otherwise the next time its energy range is set. -/
theorem C137_restore_refuted : ∃ g : ℕ,
    let w := past plain (start ++ [.observe 0 0 none 3])
    let w₁ := past plain (start ++ [.observe 0 0 none 3, .readGrouping 0, .write g 1 (-1)])
    let w₂ := past plain (start ++ [.observe 0 0 none 3, .readGrouping 0, .write g 1 (-1), .setGrouping 0 none])
    let w₃ := past plain (start ++ [.observe 0 0 none 3, .readGrouping 0, .write g 1 (-1), .setErange 1 3])
    countsOf w 0 = some [1, 2, 3] ∧ countsOf w 1 = some [1, 2, 3] ∧
    countsOf w₁ 0 = some [1, 2, 3] ∧ countsOf w₁ 1 = some [1, 2, 3] ∧ flagsOf w₁ 1 = some [1, -1, 1] ∧
    countsOf w₂ 0 = some [3, 3] ∧ countsOf w₃ 1 = some [3, 3] :=
  ⟨7, by decide +kernel⟩

/-- **C137** (refuted: net counts).  Without background, `net_counts` is `spec_counts`: writing into the one changes the other. -/
theorem C137_net_refuted : ∃ a : ℕ,
    let w := past plain start
    let w₁ := past plain (start ++ [.readObs 0 .netCounts, .write a 0 9])
    countsOf w 0 = some [1, 2, 3] ∧ countsOf w₁ 0 = some [9, 2, 3] :=
  ⟨24, by decide +kernel⟩

end Elisa.Data.Alias
