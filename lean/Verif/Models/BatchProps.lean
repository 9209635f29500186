import Verif.Models.Batch
import Verif.Models.CompileProps
import Verif.Models.SpectraProps
import Verif.Data.ObsProps

/-!
# C90: a batch of parameters gives the batch of results; folded spectra
-/

namespace Elisa.Models.Info

open Elisa Elisa.Models.Label Elisa.Models.Track Elisa.Models.Spectra

/-- The indices of an array of shape `s`. -/
def IndexOf (idx s : List ℕ) : Prop := List.Forall₂ (· < ·) idx s

/-- `f` is the compiled function of the model: for scalar parameters it returns the value `model` computes from the values of the slots. -/
def Evaluates {K R : Type} [Field K] (pw : K → K → K) (fn : String → K → K) (c : Compiled K) (model : List ((Cid × PName) × K) → R)
    (f : Dict K → Arr R) : Prop :=
  ∀ d : Dict K, (∀ q ∈ d, q.2.shape = []) → f d = ⟨[], fun _ => model (c.slotValues pw fn fun p => (d.get p).map fun a => a.get [])⟩

/-- All entries at one index. -/
def Dict.at {K : Type} (d : Dict K) (idx : List ℕ) : Dict K := d.map fun q => (q.1, ⟨[], fun _ => q.2.get idx⟩)

theorem Dict.get_map {K L : Type} (d : Dict K) (g : Arr K → Arr L) (p : Pid) :
    Dict.get (d.map fun q => (q.1, g q.2)) p = (d.get p).map g := by
  unfold Dict.get
  rw [← List.map_reverse, List.find?_map]
  simp only [Function.comp_def, Option.map_map]

theorem nestedVmap_spec {K R : Type} [Field K] {pw : K → K → K} {fn : String → K → K} {c : Compiled K} {model : List ((Cid × PName) × K) → R}
    {f : Dict K → Arr R} (hf : Evaluates pw fn c model f) :
    ∀ (s : List ℕ) (d : Dict K), d ≠ [] → (∀ q ∈ d, q.2.shape = s) → (nestedVmap f s.length d).shape = s ∧
      ∀ idx, idx.length = s.length →
        (nestedVmap f s.length d).get idx = model (c.slotValues pw fn fun p => (d.get p).map fun a => a.get idx) := by
  intro s
  induction s with
  | nil =>
    intro d hd hs
    rw [List.length_nil, nestedVmap, hf d hs]
    refine ⟨rfl, ?_⟩
    intro idx hi
    rw [List.length_eq_zero_iff.1 hi]
  | cons n s ih =>
    intro d hd hs
    have hsl : ∀ i : ℕ, ∀ q ∈ d.slice i, q.2.shape = s := by
      intro i q hq
      obtain ⟨r, hr, rfl⟩ := List.mem_map.1 hq
      simp [Arr.slice, hs r hr]
    have hne : ∀ i : ℕ, d.slice i ≠ [] := by
      intro i h
      exact hd (List.map_eq_nil_iff.1 h)
    refine ⟨?_, ?_⟩
    · show ((d.map fun q => q.2.shape).headD []).headD 0 :: (nestedVmap f s.length (d.slice 0)).shape = n :: s
      rw [(ih _ (hne 0) (hsl 0)).1]
      cases d with
      | nil => exact absurd rfl hd
      | cons q d => simp [hs q (by simp)]
    · intro idx hi
      cases idx with
      | nil => simp at hi
      | cons i idx =>
        show (nestedVmap f s.length (d.slice i)).get idx = _
        rw [(ih _ (hne i) (hsl i)).2 idx (by simpa using hi)]
        congr 2
        funext p
        rw [Dict.slice, Dict.get_map, Option.map_map]
        rfl

theorem applyBatch_spec {K R : Type} [Field K] {pw : K → K → K} {fn : String → K → K} {c : Compiled K} {model : List ((Cid × PName) × K) → R}
    {f : Dict K → Arr R} (hf : Evaluates pw fn c model f) (hn : c.paramsName ≠ []) (s : List ℕ) (d : Dict K) (hd : d ≠ [])
    (hs : ∀ q ∈ d, q.2.shape = s) : ∃ out, c.applyBatch f d = .ok out ∧ out.shape = s ∧
      ∀ idx, IndexOf idx s → out.get idx = model (c.slotValues pw fn fun p => (d.get p).map fun a => a.get idx) := by
  refine ⟨nestedVmap f s.length d, ?_, (nestedVmap_spec hf s d hd hs).1, fun idx hi => (nestedVmap_spec hf s d hd hs).2 idx hi.length_eq⟩
  rw [Compiled.applyBatch, if_neg hn]
  cases d with
  | nil => exact absurd rfl hd
  | cons q d =>
    simp only [List.map_cons, hs q (by simp)]
    rw [if_neg]
    simp only [List.any_eq_true, List.mem_map, bne_iff_ne, not_exists, not_and, ne_eq, not_not]
    rintro t ⟨r, hr, rfl⟩
    exact hs r (by simp [hr])

theorem dictZip_get {K : Type} (ids : List Pid) (cols : List (Arr K)) (idx : List ℕ) (p : Pid) :
    (Dict.get (ids.zip cols) p).map (fun a => a.get idx) = dictZip ids (cols.map fun a => a.get idx) p := by
  unfold Dict.get dictZip
  rw [List.zip_map_right, ← List.map_reverse, List.find?_map, Option.map_map, Option.map_map]
  rfl

theorem atleast1d_shape {K : Type} {a : Arr K} {s : List ℕ} {n : ℕ} (h : a.shape = s ++ [n]) : a.atleast1d = a := by
  cases a with
  | mk shape get =>
    cases shape with
    | nil => simp at h
    | cons m t => rfl

/-- Without sharing and with distinct names, an array of shape `(..., number of parameters)` is evaluated row by row: the result has the
leading shape and its element `idx` is the value of the model for the parameters `a[idx, :]` in the order of `params_name`.
(Missing: models in which a free parameter feeds several slots, for which every array is refused, `C90_shared_refuted`.) -/
theorem C90_array_partial {K R : Type} [Field K] (pw : K → K → K) (fn : String → K → K) {conf : Conf K} {comps : List Comp} (hw : WF conf comps)
    {c : Compiled K} (h : compile conf comps = .ok c) (hns : NoSharing conf comps) (hd : NamesDistinct conf comps) (hn : c.paramsName ≠ [])
    (model : List ((Cid × PName) × K) → R) (f : Dict K → Arr R) (hf : Evaluates pw fn c model f) (s : List ℕ) (a : Arr K)
    (ha : a.shape = s ++ [c.paramsName.length]) :
    ∃ out, c.evalBatch f (.array a) = .ok out ∧ out.shape = s ∧
      ∀ idx, IndexOf idx s → ∃ ps, prepareSeq c ((List.range c.paramsName.length).map fun j : ℕ => a.get (idx ++ [j])) = .ok ps ∧
        out.get idx = model (c.slotValues pw fn ps) := by
  have hlen : c.paramsId.length = c.paramsName.length := by
    obtain ⟨m, hm, -⟩ := C33_positional_keyword_partial hw h hns hd (List.replicate c.paramsName.length (0 : K)) (by simp)
    unfold prepareSeq at hm
    split_ifs at hm with h1 h2
    simpa using h2
  have hp : c.fromArray a = .ok (c.paramsId.zip ((List.range c.paramsName.length).map fun j : ℕ => a.column j)) := by
    rw [Compiled.fromArray, atleast1d_shape ha, if_neg (by simp [ha]), if_neg (by simp [hlen])]
  have hne : c.paramsId.zip ((List.range c.paramsName.length).map fun j : ℕ => a.column j) ≠ [] := by
    intro he
    have h0 := congrArg List.length he
    rw [List.length_zip, List.length_map, List.length_range, hlen, List.length_nil, min_self] at h0
    exact hn (List.length_eq_zero_iff.1 h0)
  obtain ⟨out, h1, h2, h3⟩ := applyBatch_spec hf hn s _ hne (by
    intro q hq
    obtain ⟨j, -, hj⟩ := List.mem_map.1 (List.of_mem_zip hq).2
    rw [← hj]
    simp [Arr.column, ha])
  refine ⟨out, ?_, h2, ?_⟩
  · rw [Compiled.evalBatch, Compiled.prepare, hp]
    exact h1
  · intro idx hi
    refine ⟨dictZip c.paramsId ((List.range c.paramsName.length).map fun j : ℕ => a.get (idx ++ [j])), ?_, ?_⟩
    · rw [prepareSeq, if_neg (by simp), if_neg (by simp [hlen])]
    · rw [h3 idx hi]
      congr 2
      funext p
      rw [dictZip_get, List.map_map]
      rfl

/-- A free parameter that feeds two slots makes every array of parameters an error, whatever its shape. -/
theorem C90_shared_refuted {K R : Type} {conf : Conf K} {comps : List Comp} (hw : WF conf comps)
    {c : Compiled K} (h : compile conf comps = .ok c) (hns : ¬ NoSharing conf comps) (f : Dict K → Arr R) (a : Arr K) :
    c.evalBatch f (.array a) = .error .valueError := by
  have hlen : c.paramsId.length ≠ c.paramsName.length := by
    intro he
    by_cases hK : Nonempty K
    · obtain ⟨k⟩ := hK
      have := C33_shared_refuted hw h hns (List.replicate c.paramsName.length k)
      unfold prepareSeq at this
      rw [if_neg (by simp), if_neg (by simp [he])] at this
      cases this
    · exact hK ⟨a.get []⟩
  have : c.fromArray a = .error .valueError := by
    rw [Compiled.fromArray]
    split_ifs
    · rfl
    · rfl
  rw [Compiled.evalBatch, Compiled.prepare, this]

/-- An array whose last axis is not the number of parameters is refused, and so is what is neither array nor mapping; a scalar counts as one
parameter. -/
theorem C90_errors {K R : Type} (c : Compiled K) (f : Dict K → Arr R) :
    (∀ a : Arr K, a.shape ≠ [] → a.shape.getLast? ≠ some c.paramsName.length → c.evalBatch f (.array a) = .error .valueError) ∧
    (∀ a : Arr K, a.shape = [] → c.paramsName.length ≠ 1 → c.evalBatch f (.array a) = .error .valueError) ∧
    c.evalBatch f .other = .error .typeError := by
  refine ⟨?_, ?_, rfl⟩
  · rintro ⟨s, g⟩ hs hl
    cases s with
    | nil => exact absurd rfl hs
    | cons n s =>
      have hl' : c.fromArray ⟨n :: s, g⟩ = .error .valueError := if_pos hl
      rw [Compiled.evalBatch, Compiled.prepare, hl']
  · rintro ⟨s, g⟩ hs hl
    simp only at hs
    subst hs
    have hl' : [1].getLast? ≠ some c.paramsName.length := by simpa using Ne.symm hl
    have he : c.fromArray ⟨[], g⟩ = .error .valueError := if_pos hl'
    rw [Compiled.evalBatch, Compiled.prepare, he]

/-! ## Mappings -/

theorem lookup_known {K : Type} (c : Compiled K) (nm : String) (p : Pid) (h : c.lookup nm = some p) : c.name p = nm ∧ nm ∈ c.knownNames := by
  unfold Compiled.lookup at h
  have key : ∀ ids, pidOfName c ids nm = some p → c.name p = nm ∧ p ∈ ids := by
    intro ids hp
    unfold pidOfName at hp
    have h1 := List.find?_some hp
    have h2 := List.mem_of_find?_eq_some hp
    exact ⟨by simpa using h1, by simpa using h2⟩
  cases hfx : pidOfName c c.fixedId nm with
  | some q =>
    rw [hfx] at h
    simp only [Option.orElse_some, Option.some.injEq] at h
    subst h
    obtain ⟨h1, h2⟩ := key _ hfx
    refine ⟨h1, ?_⟩
    rw [Compiled.knownNames, List.mem_append]
    by_cases hm : nm ∈ c.paramsName
    · exact Or.inl hm
    · refine Or.inr (List.mem_filter.2 ⟨?_, by simpa using hm⟩)
      rw [List.mem_reverse, List.mem_dedup, List.mem_reverse]
      exact List.mem_map.2 ⟨_, h2, h1⟩
  | none =>
    rw [hfx] at h
    simp only [Option.orElse_none] at h
    obtain ⟨h1, h2⟩ := key _ h
    refine ⟨h1, ?_⟩
    rw [Compiled.knownNames, List.mem_append]
    left
    rw [Compiled.paramsName, List.mem_reverse, List.mem_dedup, List.mem_reverse]
    exact List.mem_map.2 ⟨_, h2, h1⟩

theorem mem_fromMapping {K : Type} (c : Compiled K) (m : List (String × Arr K)) (p : Pid) (v : Arr K) :
    (p, v) ∈ c.fromMapping m ↔ c.lookup (c.name p) = some p ∧ m.lookup (c.name p) = some v := by
  simp only [Compiled.fromMapping, List.mem_filterMap, bind, Option.bind_eq_some_iff, pure, Option.some.injEq, Prod.mk.injEq]
  constructor
  · rintro ⟨nm, -, q, hq, w, hw, rfl, rfl⟩
    have := (lookup_known c nm q hq).1
    subst this
    exact ⟨hq, hw⟩
  · rintro ⟨h1, h2⟩
    exact ⟨c.name p, (lookup_known c _ _ h1).2, p, h1, v, h2, rfl, rfl⟩

theorem fromMapping_get {K : Type} (c : Compiled K) (m : List (String × Arr K)) (p : Pid) :
    (c.fromMapping m).get p = if c.lookup (c.name p) = some p then m.lookup (c.name p) else none := by
  unfold Dict.get
  cases hf : (c.fromMapping m).reverse.find? fun q => q.1 == p with
  | some q =>
    have h1 := List.find?_some hf
    have h2 := List.mem_of_find?_eq_some hf
    rw [List.mem_reverse] at h2
    simp only [beq_iff_eq] at h1
    obtain ⟨a, v⟩ := q
    simp only at h1
    subst h1
    obtain ⟨h3, h4⟩ := (mem_fromMapping c m _ _).1 h2
    rw [if_pos h3, h4]
    rfl
  | none =>
    split_ifs with hl
    · cases hm : m.lookup (c.name p) with
      | none => rfl
      | some v =>
        exfalso
        have := (mem_fromMapping c m p v).2 ⟨hl, hm⟩
        rw [List.find?_eq_none] at hf
        exact hf (p, v) (by simpa using this) (by simp)
    · rfl

theorem lookup_map_snd {A B : Type} (m : List (String × A)) (g : A → B) (k : String) :
    (m.map fun q => (q.1, g q.2)).lookup k = (m.lookup k).map g := by
  induction m with
  | nil => rfl
  | cons q m ih =>
    obtain ⟨n, v⟩ := q
    by_cases hk : k = n
    · subst hk; simp
    · have hk' : (k == n) = false := by simpa using hk
      simp only [List.map_cons, List.lookup, hk']
      exact ih

theorem lookup_mem' {A : Type} {m : List (String × A)} {k : String} {v : A} (h : m.lookup k = some v) : (k, v) ∈ m := by
  induction m with
  | nil => simp at h
  | cons q m ih =>
    obtain ⟨n, x⟩ := q
    by_cases hkk : k = n
    · subst hkk
      simp only [List.lookup, beq_self_eq_true, Option.some.injEq] at h
      subst h
      simp
    · have hk' : (k == n) = false := by simpa using hkk
      simp only [List.lookup, hk'] at h
      simp [ih h]

/-- A mapping of parameters (free or fixed) to arrays of one shape gives the results of that shape, element `idx` being the value of the
model for the mapping of the same names to their values at `idx`.  Names the model does not know are ignored, with their shapes; sharing
does not matter. -/
theorem C90_mapping {K R : Type} [Field K] (pw : K → K → K) (fn : String → K → K) (c : Compiled K) (hn : c.paramsName ≠ [])
    (model : List ((Cid × PName) × K) → R) (f : Dict K → Arr R) (hf : Evaluates pw fn c model f) (s : List ℕ) (m : List (String × Arr K))
    (hm : ∀ nm v, m.lookup nm = some v → c.lookup nm ≠ none → v.shape = s) (hk : ∃ nm v, m.lookup nm = some v ∧ c.lookup nm ≠ none) :
    ∃ out, c.evalBatch f (.mapping m) = .ok out ∧ out.shape = s ∧
      ∀ idx, IndexOf idx s → ∃ ps, prepareMap c (m.map fun q => (q.1, q.2.get idx)) = .ok ps ∧ out.get idx = model (c.slotValues pw fn ps) := by
  obtain ⟨nm, v, hv, hp⟩ := hk
  obtain ⟨p, hp⟩ := Option.ne_none_iff_exists'.1 hp
  have hpn := (lookup_known c nm p hp).1
  have hne : c.fromMapping m ≠ [] := by
    intro he
    have := (mem_fromMapping c m p v).2 ⟨by rw [hpn]; exact hp, by rw [hpn]; exact hv⟩
    rw [he] at this
    cases this
  obtain ⟨out, h1, h2, h3⟩ := applyBatch_spec hf hn s _ hne (by
    rintro ⟨q, w⟩ hq
    obtain ⟨h4, h5⟩ := (mem_fromMapping c m q w).1 hq
    exact hm _ _ h5 (by rw [h4]; simp))
  refine ⟨out, h1, h2, ?_⟩
  intro idx hi
  refine ⟨mapToParams c (m.map fun q => (q.1, q.2.get idx)), ?_, ?_⟩
  · rw [prepareMap, if_neg]
    rintro ⟨-, hall⟩
    have hmem : ∃ w, (nm, w) ∈ m := ⟨v, lookup_mem' hv⟩
    obtain ⟨w, hw⟩ := hmem
    have := hall (nm, w.get idx) (List.mem_map.2 ⟨(nm, w), hw, rfl⟩)
    simp only at this
    rw [hp] at this
    cases this
  · rw [h3 idx hi]
    congr 2
    funext q
    rw [fromMapping_get, mapToParams, lookup_map_snd m (fun a => a.get idx)]
    split_ifs
    · rfl
    · rfl

/-- A mapping that names no parameter of the model, or two with arrays of different shapes (a number beside an array, say), is refused. -/
theorem C90_mapping_errors {K R : Type} (c : Compiled K) (hn : c.paramsName ≠ []) (f : Dict K → Arr R) (m : List (String × Arr K)) :
    ((∀ nm v, m.lookup nm = some v → c.lookup nm = none) → c.evalBatch f (.mapping m) = .error .valueError) ∧
    ((∃ n₁ n₂ v₁ v₂, m.lookup n₁ = some v₁ ∧ m.lookup n₂ = some v₂ ∧ c.lookup n₁ ≠ none ∧ c.lookup n₂ ≠ none ∧ v₁.shape ≠ v₂.shape) →
      c.evalBatch f (.mapping m) = .error .valueError) := by
  constructor
  · intro hall
    have he : c.fromMapping m = [] := by
      rw [List.eq_nil_iff_forall_not_mem]
      rintro ⟨p, v⟩ hq
      obtain ⟨h1, h2⟩ := (mem_fromMapping c m p v).1 hq
      rw [hall _ _ h2] at h1
      cases h1
    simp only [Compiled.evalBatch, Compiled.prepare, Compiled.applyBatch, he, if_neg hn, List.map_nil]
  · rintro ⟨n₁, n₂, v₁, v₂, h1, h2, h3, h4, h5⟩
    obtain ⟨p₁, hp₁⟩ := Option.ne_none_iff_exists'.1 h3
    obtain ⟨p₂, hp₂⟩ := Option.ne_none_iff_exists'.1 h4
    have m1 := (mem_fromMapping c m p₁ v₁).2 (by rw [(lookup_known c _ _ hp₁).1]; exact ⟨hp₁, h1⟩)
    have m2 := (mem_fromMapping c m p₂ v₂).2 (by rw [(lookup_known c _ _ hp₂).1]; exact ⟨hp₂, h2⟩)
    simp only [Compiled.evalBatch, Compiled.prepare, Compiled.applyBatch, if_neg hn]
    have s1 : v₁.shape ∈ (c.fromMapping m).map fun q => q.2.shape := List.mem_map.2 ⟨_, m1, rfl⟩
    have s2 : v₂.shape ∈ (c.fromMapping m).map fun q => q.2.shape := List.mem_map.2 ⟨_, m2, rfl⟩
    generalize (c.fromMapping m).map (fun q => q.2.shape) = l at s1 s2
    cases l with
    | nil => cases s1
    | cons t ts =>
      simp only
      rw [if_pos]
      rw [List.any_eq_true]
      by_cases ht : v₁.shape = t
      · refine ⟨v₂.shape, ?_, by simpa using fun he => h5 (ht.trans he.symm)⟩
        rcases List.mem_cons.1 s2 with h | h
        · exact absurd (ht.trans h.symm) h5
        · exact h
      · refine ⟨v₁.shape, ?_, by simpa using ht⟩
        rcases List.mem_cons.1 s1 with h | h
        · exact absurd h ht
        · exact h

/-- **C90.** Without parameters the model is evaluated once, at the default values: the result has no batch axes. -/
theorem C90_default {K R : Type} [Field K] (pw : K → K → K) (fn : String → K → K) {conf : Conf K} {comps : List Comp} (hw : WF conf comps)
    {c : Compiled K} (h : compile conf comps = .ok c) (model : List ((Cid × PName) × K) → R) (f : Dict K → Arr R)
    (hf : Evaluates pw fn c model f) :
    ∃ out, c.evalBatch f .nothing = .ok out ∧ out.shape = [] ∧ out.get [] = model (c.slotValues pw fn (prepareDefault c)) := by
  have hget : ∀ p, (c.fromDefault.get p).map (fun a => a.get []) = c.default p := by
    intro p
    unfold Dict.get
    cases hfd : c.fromDefault.reverse.find? fun q => q.1 == p with
    | some q =>
      have h1 := List.find?_some hfd
      have h2 := List.mem_of_find?_eq_some hfd
      rw [List.mem_reverse] at h2
      simp only [beq_iff_eq] at h1
      simp only [Compiled.fromDefault, List.mem_filterMap, Option.map_eq_some_iff] at h2
      obtain ⟨p', -, v, hv, rfl⟩ := h2
      simp only at h1
      subst h1
      simp [hv]
    | none =>
      rw [List.find?_eq_none] at hfd
      cases hd : c.default p with
      | none => rfl
      | some v =>
        exfalso
        have hm : p ∈ c.paramsId := by
          have h3 := hd
          rw [(compile_ok h).2.2.2.1, sampleDefault] at h3
          split_ifs at h3 with h4
          rw [(compile_ok h).1, List.mem_filter]
          refine ⟨?_, decide_eq_true h4⟩
          have := mem_paramsId hw h (p := p)
          rw [(compile_ok h).1, List.mem_filter] at this
          exact (this.2 ((mem_sampleIds hw).1 h4)).1
        refine hfd (p, ⟨[], fun _ => v⟩) ?_ (by simp)
        rw [List.mem_reverse, Compiled.fromDefault, List.mem_filterMap]
        exact ⟨p, List.mem_dedup.2 hm, by simp [hd]⟩
  have hs : ∀ q ∈ c.fromDefault, q.2.shape = [] := by
    intro q hq
    simp only [Compiled.fromDefault, List.mem_filterMap, Option.map_eq_some_iff] at hq
    obtain ⟨p', -, v, hv, rfl⟩ := hq
    rfl
  have hfin : c.slotValues pw fn (fun p => (c.fromDefault.get p).map fun a => a.get []) = c.slotValues pw fn (prepareDefault c) := by
    congr 1
    funext p
    exact hget p
  simp only [Compiled.evalBatch, Compiled.prepare]
  by_cases hn : c.paramsName = []
  · refine ⟨f c.fromDefault, by rw [Compiled.applyBatch, if_pos hn], ?_, ?_⟩
    · rw [hf _ hs]
    · rw [hf _ hs, ← hfin]
  · have hne : c.fromDefault ≠ [] := by
      intro he
      have : c.paramsId ≠ [] := by
        intro h0
        apply hn
        rw [Compiled.paramsName, h0]
        rfl
      obtain ⟨p, hp⟩ := List.exists_mem_of_ne_nil _ this
      have hd : c.default p = some (conf.default p) := by
        rw [(compile_ok h).1, List.mem_filter] at hp
        rw [(compile_ok h).2.2.2.1, sampleDefault, if_pos (of_decide_eq_true hp.2)]
      have := hget p
      rw [hd, he] at this
      cases this
    obtain ⟨out, h1, h2, h3⟩ := applyBatch_spec hf hn [] _ hne hs
    exact ⟨out, h1, h2, by rw [h3 [] .nil, hfin]⟩

/-! ## A model without free parameters -/

/-- A power law with both parameters fixed. -/
def fixedDemo : List Comp := [⟨100, "PowerLaw", [("alpha", .leaf 1), ("K", .leaf 2)]⟩]

def fixedDemoConf : Conf ℚ where
  kind _ := .fixed
  default p := p
  auxName _ := ""
  hist := histOf fixedDemo

/-- Elementwise arithmetic of an amplitude of shape `[]`, `[1]` or `[2]` with the two bins of a spectrum, as JAX broadcasts it. -/
def twoBins (amp : Arr ℚ) : List ℚ := [amp.get (amp.shape.map fun _ => 0) * 10, amp.get (amp.shape.map fun n => n - 1) * 20]

/-- The compiled function of `fixedDemo` (with a shape of 10, 20 in two bins). -/
def fixedFn (d : Dict ℚ) : Arr (List ℚ) := ⟨[], fun _ => twoBins ((d.get 2).getD ⟨[], fun _ => 2⟩)⟩

/-- What it does on scalars. -/
def fixedModel (l : List ((Cid × PName) × ℚ)) : List ℚ := match l with
  | [_, (_, k)] => [k * 10, k * 20]
  | _ => []

theorem fixedDemo_evaluates : ∃ c, compile fixedDemoConf fixedDemo = .ok c ∧ Evaluates (fun a _ => a) (fun _ a => a) c fixedModel fixedFn := by
  refine ⟨_, rfl, ?_⟩
  intro d hd
  unfold fixedFn
  congr 1
  funext _
  cases hg : d.get 2 with
  | none =>
    simp only [Option.getD_none, twoBins, Compiled.slotValues, List.map_nil]
    simp [slots, fixedDemo, capture, Clo.run, fixedModel, hg, dictOr, fixedValue, fixedDemoConf]
    split_ifs <;> rfl
  | some a =>
    have ha : a.shape = [] := by
      unfold Dict.get at hg
      rw [Option.map_eq_some_iff] at hg
      obtain ⟨q, hq, rfl⟩ := hg
      exact hd q (by simpa using List.mem_of_find?_eq_some hq)
    simp only [Option.getD_some, twoBins, Compiled.slotValues, ha, List.map_nil]
    simp [slots, fixedDemo, capture, Clo.run, fixedModel, hg, dictOr]

/-- Fixed parameters can be given by name, but in a model without free parameters arrays of them are not a batch: nothing is mapped over, the
arrays meet the energy bins.  With two bins (model 10 K, 20 K) and K = [1, 5] the result is one spectrum, [10, 100], whose bins belong to
different amplitudes, instead of the two spectra [10, 20] and [50, 100]; and different shapes are not noticed. -/
theorem C90_fixed_refuted : ∃ c : Compiled ℚ, compile fixedDemoConf fixedDemo = .ok c ∧ c.paramsName = [] ∧
    Evaluates (fun a _ => a) (fun _ a => a) c fixedModel fixedFn ∧
    ∃ m : List (String × Arr ℚ), m.lookup "PowerLaw.K" = some ⟨[2], fun idx => if idx = [0] then 1 else 5⟩ ∧
      (∃ ps, prepareMap c [("PowerLaw.K", 1)] = .ok ps ∧ fixedModel (c.slotValues (fun a _ => a) (fun _ a => a) ps) = [10, 20]) ∧
      (∃ ps, prepareMap c [("PowerLaw.K", 5)] = .ok ps ∧ fixedModel (c.slotValues (fun a _ => a) (fun _ a => a) ps) = [50, 100]) ∧
      ∃ out, c.evalBatch fixedFn (.mapping m) = .ok out ∧ out.shape = [] ∧ out.get [] = [10, 100] := by
  obtain ⟨c, h, he⟩ := fixedDemo_evaluates
  refine ⟨c, h, ?_, he, [("PowerLaw.K", ⟨[2], fun idx => if idx = [0] then 1 else 5⟩)], rfl, ?_, ?_, ?_⟩
  · cases h; decide +kernel
  · cases h; exact ⟨_, rfl, by decide +kernel⟩
  · cases h; exact ⟨_, rfl, by decide +kernel⟩
  · cases h
    exact ⟨_, rfl, rfl, by decide +kernel⟩

/-! ## Concrete batches -/

/-- `demo2` with `params` of shape `(3, 2, 4)`, and by name with a scalar-shaped batch. -/
example : ∃ c, compile demoConf2 demo2 = .ok c ∧ c.paramsName.length = 4 ∧ ∀ (R : Type) (model : List ((Cid × PName) × ℚ) → R) (f : Dict ℚ → Arr R),
    Evaluates (fun a _ => a) (fun _ a => a) c model f → ∃ out, c.evalBatch f (.array ⟨[3, 2, 4], fun idx => idx.sum⟩) = .ok out ∧ out.shape = [3, 2] ∧
      ∃ ps, prepareSeq c [3, 4, 5, 6] = .ok ps ∧ out.get [2, 1] = model (c.slotValues (fun a _ => a) (fun _ a => a) ps) := by
  obtain ⟨c, h⟩ : ∃ c, compile demoConf2 demo2 = .ok c := ⟨_, rfl⟩
  have h4 : c.paramsName.length = 4 := by cases h; decide +kernel
  refine ⟨c, h, h4, ?_⟩
  intro R model f hf
  obtain ⟨out, h1, h2, h3⟩ := C90_array_partial _ _ demo2_wf h demo2_noSharing demo2_names (by intro he; rw [he] at h4; cases h4) model f hf [3, 2]
    ⟨[3, 2, 4], fun idx => idx.sum⟩ (by rw [h4]; rfl)
  refine ⟨out, h1, h2, ?_⟩
  obtain ⟨ps, h5, h6⟩ := h3 [2, 1] (by unfold IndexOf; simp)
  refine ⟨ps, ?_, h6⟩
  rw [← h5, h4]
  congr 1

/-- `demo` (with shared parameters) refuses arrays and takes mappings. -/
example : ∃ c, compile demoConf demo = .ok c ∧ ∀ (R : Type) (model : List ((Cid × PName) × ℚ) → R) (f : Dict ℚ → Arr R),
    Evaluates (fun a _ => a) (fun _ a => a) c model f → ∃ out,
      c.evalBatch f (.mapping [("PowerLaw.K", ⟨[5], fun idx => idx.sum⟩), ("nobody", ⟨[7, 7], fun _ => 0⟩)]) = .ok out ∧ out.shape = [5] := by
  obtain ⟨c, h⟩ : ∃ c, compile demoConf demo = .ok c := ⟨_, rfl⟩
  refine ⟨c, h, ?_⟩
  intro R model f hf
  have hK : c.lookup "PowerLaw.K" = some 2 := by cases h; decide +kernel
  have hN : c.lookup "nobody" = none := by cases h; decide +kernel
  obtain ⟨out, h1, h2, -⟩ := C90_mapping _ _ c (by cases h; decide +kernel) model f hf [5]
    [("PowerLaw.K", ⟨[5], fun idx => idx.sum⟩), ("nobody", ⟨[7, 7], fun _ => 0⟩)] (by
      intro nm v hv hc
      have := lookup_mem' hv
      simp only [List.mem_cons, Prod.mk.injEq, List.not_mem_nil, or_false] at this
      rcases this with ⟨rfl, rfl⟩ | ⟨rfl, rfl⟩
      · rfl
      · exact absurd hN hc) ⟨"PowerLaw.K", _, rfl, by rw [hK]; simp⟩
  exact ⟨out, h1, h2⟩

/-! ## Folding -/

open Elisa.Data Elisa.Grouping

theorem zipWith_sum_range (v : List ℝ) (m : List (List ℝ)) (j : ℕ) :
    (List.zipWith (fun x (row : List ℝ) => x * row.getD j 0) v m).sum = ∑ r ∈ Finset.range m.length, at0 v r * at0 (m.getD r []) j := by
  induction m generalizing v with
  | nil => simp
  | cons row m ih =>
    rw [List.length_cons, Finset.sum_range_succ']
    cases v with
    | nil => simp [at0]
    | cons x v =>
      rw [List.zipWith_cons_cons, List.sum_cons, ih]
      rw [add_comm]
      rfl

/-- **C90 (folded spectrum).**  Channel `j` of `ce`, times the width of the channel, is the model folded through the response: the sum over the
photon bins of the photons in the bin times the response, for every increasing grid; so is every additive component with `comps=True`.  Models that are
not additive, and components asked of a model that has none, are refused. -/
theorem C90_folded (m : Folding) (egrid : List ℝ) (hg : egrid.IsChain (· < ·)) (resp : List (List ℝ)) (width : List ℝ) (hw : ∀ w ∈ width, w ≠ 0) :
    (m.add = false → ∀ comps, m.ce egrid resp width comps = .error .typeError) ∧
    (m.add = true → m.subs = none → m.ce egrid resp width true = .error .runtimeError) ∧
    (m.add = true → (m.fn egrid).length = egrid.length - 1 → ∃ c, m.ce egrid resp width false = .ok (.total c) ∧ c.length = width.length ∧
      ∀ (j : ℕ) (w : ℝ), width[j]? = some w → ∃ x, c[j]? = some x ∧ x * w = foldAt (m.fn egrid) resp j) ∧
    (∀ subs, m.add = true → m.subs = some subs → (∀ q ∈ subs, (q.2 egrid).length = egrid.length - 1) →
      ∃ cs, m.ce egrid resp width true = .ok (.comps cs) ∧ cs.map Prod.fst = subs.map Prod.fst ∧
        ∀ (i : ℕ) (q : String × ModelFn), subs[i]? = some q → ∃ c, cs[i]? = some (q.1, c) ∧ c.length = width.length ∧
          ∀ (j : ℕ) (w : ℝ), width[j]? = some w → ∃ x, c[j]? = some x ∧ x * w = foldAt (q.2 egrid) resp j) := by
  have key : ∀ fn : ModelFn, (fn egrid).length = egrid.length - 1 → (foldNE egrid resp width (ne fn egrid)).length = width.length ∧
      ∀ (j : ℕ) (w : ℝ), width[j]? = some w → ∃ x, (foldNE egrid resp width (ne fn egrid))[j]? = some x ∧ x * w = foldAt (fn egrid) resp j := by
    intro fn hl
    rw [foldNE, ne_mul_diff hl hg]
    refine ⟨by simp [vecMat], ?_⟩
    intro j w hj
    have hjl : j < width.length := by
      by_contra hc
      rw [List.getElem?_eq_none (by omega)] at hj
      cases hj
    refine ⟨foldAt (fn egrid) resp j / w, ?_, ?_⟩
    · rw [List.getElem?_zipWith, hj, vecMat, List.getElem?_map, List.getElem?_range hjl]
      simp only [Option.map_some]
      rw [zipWith_sum_range]
      rfl
    · have := hw w (List.mem_of_getElem? hj)
      field_simp
  refine ⟨?_, ?_, ?_, ?_⟩
  · intro h comps
    simp [Folding.ce, h]
  · intro h hs
    simp [Folding.ce, h, hs]
  · intro h hl
    refine ⟨foldNE egrid resp width (ne m.fn egrid), ?_, key m.fn hl⟩
    simp [Folding.ce, h]
  · intro subs h hs hl
    refine ⟨subs.map fun q => (q.1, foldNE egrid resp width (ne q.2 egrid)), ?_, ?_, ?_⟩
    · simp [Folding.ce, h, hs]
    · simp [List.map_map, Function.comp_def]
    · intro i q hi
      refine ⟨foldNE egrid resp width (ne q.2 egrid), ?_, key q.2 (hl q (List.mem_of_getElem? hi))⟩
      rw [List.getElem?_map, hi]
      rfl

/-- The folded spectrum is additive: that of a sum of models is the sum of those of the models. -/
theorem C90_folded_additive (v₁ v₂ v : List ℝ) (resp : List (List ℝ)) (j : ℕ) (h : ∀ i, at0 v i = at0 v₁ i + at0 v₂ i) :
    foldAt v resp j = foldAt v₁ resp j + foldAt v₂ resp j := by
  unfold foldAt
  rw [← Finset.sum_add_distrib]
  exact Finset.sum_congr rfl fun r _ => by rw [h]; ring

/-- A model with 3 and 5 photons in two bins, one component, and a response of 2 bins and 3 channels. -/
example : (⟨true, fun _ => [3, 5], some [("a", fun _ => [3, 5])]⟩ : Folding).add = true ∧ [(1 : ℝ), 2, 4].IsChain (· < ·) ∧
    foldAt [3, 5] [[1, 0, 2], [0, 1, 1]] 2 = 11 := by
  refine ⟨rfl, ?_, ?_⟩
  · norm_num
  · norm_num [foldAt, Finset.sum_range_succ, at0]

end Elisa.Models.Info
