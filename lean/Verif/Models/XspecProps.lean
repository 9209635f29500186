import Verif.Models.Xspec
import Verif.Models.SpectraProps

/-!
# C91: components of the XSPEC library
-/

namespace Elisa.Models.Xspec

open Elisa Elisa.Models.Spectra

/-! ## Names -/

/-- The name of a slot is not a Python keyword and has no dot, so it can be written as an attribute and as an argument; a name that can be used as
it is, is kept. -/
theorem C91_names (s : String) : slotName s ∉ keywords ∧ '.' ∉ (slotName s).toList ∧ (s ∉ keywords → '.' ∉ s.toList → slotName s = s) := by
  have hnodot : '.' ∉ (String.ofList (s.toList.map fun c => if c = '.' then '_' else c)).toList := by
    simp only [String.toList_ofList, List.mem_map, not_exists, not_and]
    intro c hc
    split_ifs with h
    · decide
    · exact h
  have hk : ∀ n ∈ keywords, n ++ "_" ∉ keywords := by decide +kernel
  refine ⟨?_, ?_, ?_⟩
  · unfold slotName
    simp only
    split_ifs with h
    · exact hk _ h
    · exact h
  · unfold slotName
    simp only
    split_ifs with h
    · rw [String.toList_append, List.mem_append]
      rintro (h1 | h1)
      · exact hnodot h1
      · exact absurd h1 (by decide)
    · exact hnodot
  · intro h1 h2
    have : String.ofList (s.toList.map fun c => if c = '.' then '_' else c) = s := by
      have e : (s.toList.map fun c => if c = '.' then '_' else c) = s.toList := by
        conv_rhs => rw [← List.map_id s.toList]
        apply List.map_congr_left
        intro c hc
        rw [if_neg]
        · rfl
        · rintro rfl; exact h2 hc
      rw [e, String.ofList_toList]
    unfold slotName
    simp only [this]
    rw [if_neg h1]

/-! ## Values -/

/-- **C91 (values).**  XSPEC is given the value of every one of its parameters, in its own order, from the slot generated for it; an additive component is the
result times the slot `norm`.  (For additive models without a parameter that is itself called `norm`.) -/
theorem C91_values (ps : List XParam) (f : List ℝ → List ℝ → List ℝ) (egrid : List ℝ) (slot : String → ℝ) :
    (∀ cfg, classConfig .mul ps = some cfg → mulEval cfg f egrid slot = f (ps.map fun p => slot (slotName p.name)) egrid) ∧
    ((∀ p ∈ ps, slotName p.name ≠ "norm") → ∀ cfg, classConfig .add ps = some cfg →
      addEval cfg f egrid slot = (f (ps.map fun p => slot (slotName p.name)) egrid).map fun v => slot "norm" * v) := by
  constructor
  · intro cfg h
    simp only [classConfig, Option.some.injEq] at h
    subst h
    simp [mulEval, List.map_map, Function.comp_def, genConfig]
  · intro hn cfg h
    simp only [classConfig, Option.some.injEq] at h
    subst h
    have e : ((ps.map genConfig ++ [normConfig]).map Config.name).filter (fun n => n ≠ "norm") = ps.map fun p => slotName p.name := by
      rw [List.map_append, List.filter_append, List.map_map]
      have h1 : (ps.map (Config.name ∘ genConfig)).filter (fun n => n ≠ "norm") = ps.map fun p => slotName p.name := by
        rw [List.filter_eq_self.2]
        · rfl
        · intro n hm
          obtain ⟨p, hp, rfl⟩ := List.mem_map.1 hm
          exact decide_eq_true (hn p hp)
      rw [h1]
      simp [normConfig]
    simp only [addEval, addIntegral, e, List.map_map]
    rfl

/-- The declared configuration keeps what XSPEC says: default, bounds (if any) and whether the parameter is fixed. -/
theorem C91_config (kind : Kind) (ps : List XParam) (cfg : List Config) (h : classConfig kind ps = some cfg) (i : ℕ) (p : XParam) (hp : ps[i]? = some p) :
    ∃ c, cfg[i]? = some c ∧ c.default = p.default ∧ c.fixed = p.fixed ∧ (∀ m, p.min = some m → c.min = m) ∧ (∀ m, p.max = some m → c.max = m) ∧
      (p.min = none → c.min = -1) ∧ (p.max = none → c.max = 1e10) := by
  have hi : i < ps.length := by
    by_contra hc
    rw [List.getElem?_eq_none (by omega)] at hp
    cases hp
  have : cfg[i]? = some (genConfig p) := by
    cases kind with
    | add =>
      simp only [classConfig, Option.some.injEq] at h
      rw [← h, List.getElem?_append_left (by simpa using hi), List.getElem?_map, hp]
      rfl
    | mul =>
      simp only [classConfig, Option.some.injEq] at h
      rw [← h, List.getElem?_map, hp]
      rfl
    | con =>
      simp only [classConfig, Option.some.injEq] at h
      rw [← h, List.getElem?_map, hp]
      rfl
    | other => cases h
  refine ⟨_, this, rfl, rfl, ?_, ?_, ?_, ?_⟩
  · intro m hm; simp [genConfig, hm]
  · intro m hm; simp [genConfig, hm]
  · intro hm; simp [genConfig, hm]
  · intro hm; simp [genConfig, hm]

/-- The slots of a component are the parameters of XSPEC and, for an additive component only, one more at the end: `norm`, free, starting at 1, between
1e-10 and 1e10. -/
theorem C91_slots (kind : Kind) (ps : List XParam) (cfg : List Config) (h : classConfig kind ps = some cfg) :
    (kind ≠ .add → cfg.length = ps.length) ∧
    (kind = .add → cfg.length = ps.length + 1 ∧ ∃ c, cfg.getLast? = some c ∧ c.name = "norm" ∧ c.default = 1 ∧ c.min = 1e-10 ∧ c.max = 1e10 ∧
      c.fixed = false) := by
  cases kind with
  | add =>
    simp only [classConfig, Option.some.injEq] at h
    subst h
    refine ⟨fun h => absurd rfl h, fun _ => ⟨by simp, normConfig, by simp, rfl, rfl, rfl, rfl, rfl⟩⟩
  | mul => simp only [classConfig, Option.some.injEq] at h; subst h; simp
  | con => simp only [classConfig, Option.some.injEq] at h; subst h; simp
  | other => cases h

example : ∃ cfg, classConfig .add [⟨"nH", 1, none, none, none, false⟩] = some cfg ∧ cfg.length = 2 := ⟨_, rfl, rfl⟩

/-- A parameter of XSPEC without bounds (a switch or a scale) and with a default below -1 or above 1e10 has a default outside the bounds declared for it, so
that the component cannot be created. -/
theorem C91_bounds_refuted : ∃ p : XParam, (genConfig p).default < (genConfig p).min :=
  ⟨⟨"switch", -2, none, none, none, true⟩, by norm_num [genConfig]⟩

/-- An additive model with a parameter that is itself called `norm`: XSPEC gets one value less than it has parameters. -/
theorem C91_norm_refuted : ∃ (ps : List XParam) (cfg : List Config) (slot : String → ℝ), classConfig .add ps = some cfg ∧ ps.length = 1 ∧
    addIntegral cfg (fun v (_ : Unit) => v.length) () slot = 0 := by
  refine ⟨[⟨"norm", 1, none, none, none, false⟩], _, fun _ => 0, rfl, rfl, ?_⟩
  have : slotName "norm" = "norm" := by decide +kernel
  simp [addIntegral, genConfig, normConfig, this]

example : slotName "lambda" = "lambda_" ∧ slotName "kT.cc" = "kT_cc" ∧ slotName "nH" = "nH" := by decide +kernel

example : (∀ p ∈ [(⟨"nH", 1, none, none, none, false⟩ : XParam), ⟨"kT.cc", 2, none, some 0, some 5, true⟩], slotName p.name ≠ "norm") := by
  intro p hp
  simp only [List.mem_cons, List.not_mem_nil, or_false] at hp
  rcases hp with rfl | rfl <;> decide +kernel

/-! ## Derivative method -/

/-- The derivative method is one of the two, others are refused without a change; the first evaluation uses the method assigned last. -/
theorem C91_grad (g : Grad) (v : Option String) :
    (∀ g', g.set v = .ok g' → (g'.method = "central" ∨ g'.method = "forward") ∧ (v = none → g'.method = "central") ∧ (∀ m, v = some m → g'.method = m) ∧
      (g.cached = none → g'.eval.1 = g'.method)) ∧
    (∀ e, g.set v = .error e → e = .valueError ∧ ∃ m, v = some m ∧ m ≠ "central" ∧ m ≠ "forward") := by
  constructor
  · intro g' h
    simp only [Grad.set] at h
    split_ifs at h with hm
    cases h
    refine ⟨by simpa using hm, ?_, ?_, ?_⟩
    · rintro rfl; rfl
    · rintro m rfl; rfl
    · intro hc; simp [Grad.eval, hc]
  · intro e h
    simp only [Grad.set] at h
    split_ifs at h with hm
    cases h
    refine ⟨rfl, ?_⟩
    cases v with
    | none => simp at hm
    | some m =>
      simp only [Option.getD_some, List.mem_cons, List.not_mem_nil, or_false, not_or] at hm
      exact ⟨m, rfl, hm⟩

/-- A method assigned after the first evaluation (or compilation) is reported by `grad_method` but never used. -/
theorem C91_grad_refuted (g : Grad) (g' : Grad) (h : g.eval.2.set (some "forward") = .ok g') (hc : g.cached = none) (hm : g.method = "central") :
    g'.method = "forward" ∧ g'.eval.1 = "central" := by
  have h1 : g.eval.2 = ⟨g.method, some g.method⟩ := by simp [Grad.eval, hc]
  rw [h1] at h
  simp only [Grad.set, Option.getD_some] at h
  split_ifs at h with hh
  cases h
  exact ⟨rfl, by simp [Grad.eval, hm]⟩

example : (⟨"central", none⟩ : Grad).eval.2.set (some "forward") = .ok ⟨"forward", some "central"⟩ := rfl

/-! ## Convolution -/

theorem grid_length (lg : Bool) (a b : ℝ) (n : ℕ) : (grid lg a b n).length = n := by
  cases lg <;> simp [grid, bandGrid, linspace, geomspace]

theorem dropLast_append_chain {l : List ℝ} {e : ℝ} {es : List ℝ} (hl : l.IsChain (· < ·)) (hlast : l.getLast? = some e) (hes : (e :: es).IsChain (· < ·)) :
    (l.dropLast ++ e :: es).IsChain (· < ·) := by
  have hne : l ≠ [] := by rintro rfl; simp at hlast
  have hle : l.getLast hne = e := by
    rw [List.getLast?_eq_some_getLast hne] at hlast
    exact Option.some.inj hlast
  have hsplit : l.dropLast ++ [e] = l := by rw [← hle]; exact List.dropLast_append_getLast hne
  rw [List.isChain_append]
  rw [← hsplit, List.isChain_append] at hl
  refine ⟨hl.1, hes, ?_⟩
  intro x hx y hy
  have := hl.2.2 x hx e (by simp)
  simp only [List.head?_cons, Option.mem_some_iff] at hy
  subst hy
  exact this

/-- The lower extension goes on to the grid without repeating its first edge. -/
theorem extendLow_spec (x : Extension) (e : ℝ) (es : List ℝ) (h0 : 0 < x.low) (hlt : x.low < e) (hc : (e :: es).IsChain (· < ·)) :
    ∃ pre, extendLow x e es = .ok (pre ++ e :: es) ∧ pre.length = x.nlow ∧ (pre ++ e :: es).IsChain (· < ·) ∧ (x.nlow ≠ 0 → pre.head? = some x.low) := by
  refine ⟨(grid x.lowLog x.low e (x.nlow + 1)).dropLast, ?_, ?_, ?_, ?_⟩
  · rw [extendLow, if_neg (by linarith)]
  · simp [grid_length]
  · rcases Nat.eq_zero_or_pos x.nlow with hn | hn
    · have : (grid x.lowLog x.low e (x.nlow + 1)).dropLast = [] := by
        apply List.eq_nil_of_length_eq_zero
        simp [grid_length, hn]
      rw [this]
      exact hc
    · exact dropLast_append_chain (bandGrid_step h0 hlt _ (by omega) _) (bandGrid_ends h0 _ (by omega) _).2 hc
  · intro hn
    have := (bandGrid_ends (b := e) h0 (x.nlow + 1) (by omega) x.lowLog).1
    have hg : grid x.lowLog x.low e (x.nlow + 1) = bandGrid x.low e (x.nlow + 1) x.lowLog := rfl
    have hlen := grid_length x.lowLog x.low e (x.nlow + 1)
    rw [hg] at hlen ⊢
    generalize bandGrid x.low e (x.nlow + 1) x.lowLog = l at this hlen
    match l, hlen, this with
    | [], hl, _ => simp at hl
    | [a], hl, _ => simp at hl; omega
    | a :: b :: l, _, h => simpa using h

theorem extendHigh_spec (x : Extension) (g : List ℝ) (hne : g ≠ []) (hp : 0 < g.getLast hne) (hlt : g.getLast hne < x.high) (hc : g.IsChain (· < ·)) :
    ∃ post, extendHigh x g = .ok (g ++ post) ∧ post.length = x.nhigh ∧ (g ++ post).IsChain (· < ·) ∧ (x.nhigh ≠ 0 → post.getLast? = some x.high) := by
  have hl : g.getLastD 0 = g.getLast hne := by
    rw [List.getLastD_eq_getLast?, List.getLast?_eq_some_getLast hne]; rfl
  refine ⟨(grid x.highLog (g.getLast hne) x.high (x.nhigh + 1)).tail, ?_, ?_, ?_, ?_⟩
  · rw [extendHigh]
    simp only [hl]
    rw [if_neg (by linarith)]
  · simp [grid_length]
  · rcases Nat.eq_zero_or_pos x.nhigh with hn | hn
    · have : (grid x.highLog (g.getLast hne) x.high (x.nhigh + 1)).tail = [] := by
        apply List.eq_nil_of_length_eq_zero
        simp [grid_length, hn]
      rw [this, List.append_nil]
      exact hc
    · have h1 := bandGrid_step hp hlt (x.nhigh + 1) (by omega) x.highLog
      have h2 := (bandGrid_ends (b := x.high) hp (x.nhigh + 1) (by omega) x.highLog).1
      unfold grid
      generalize bandGrid (g.getLast hne) x.high (x.nhigh + 1) x.highLog = l at h1 h2
      cases l with
      | nil => simp at h2
      | cons a l =>
        simp only [List.head?_cons, Option.some.injEq] at h2
        subst h2
        rw [List.tail_cons, List.isChain_append]
        refine ⟨hc, h1.tail, ?_⟩
        intro y hy z hz
        rw [List.getLast?_eq_some_getLast hne, Option.mem_some_iff] at hy
        subst hy
        cases l with
        | nil => simp at hz
        | cons b l =>
          simp only [List.head?_cons, Option.mem_some_iff] at hz
          subst hz
          exact (List.isChain_cons_cons.1 h1).1
  · intro hn
    have h2 := (bandGrid_ends (b := x.high) hp (x.nhigh + 1) (by omega) x.highLog).2
    have hlen := grid_length x.highLog (g.getLast hne) x.high (x.nhigh + 1)
    unfold grid at hlen ⊢
    generalize bandGrid (g.getLast hne) x.high (x.nhigh + 1) x.highLog = l at h2 hlen
    match l, hlen, h2 with
    | [], hl, _ => simp at hl
    | [a], hl, _ => simp at hl; omega
    | a :: b :: l, _, h => simpa using h

/-- Energies outside the extension are refused. -/
theorem C91_range (x : Extension) (conv : List ℝ → List ℝ → List ℝ) (model : ModelFn) (e : ℝ) (es : List ℝ)
    (h : e < x.low ∨ x.high < (e :: es).getLast (by simp)) : convolved x conv model (e :: es) = .error .runtimeError := by
  by_cases h1 : e < x.low
  · simp [convolved, extendLow, h1, bind, Except.bind]
  · have h2 : x.high < (e :: es).getLast (by simp) := h.resolve_left h1
    simp only [convolved, extendLow, if_neg h1, bind, Except.bind, extendHigh]
    have : ((grid x.lowLog x.low e (x.nlow + 1)).dropLast ++ e :: es).getLastD 0 = (e :: es).getLast (by simp) := by
      rw [List.getLastD_eq_getLast?, List.getLast?_append, List.getLast?_eq_some_getLast (by simp : e :: es ≠ [])]
      rfl
    rw [this, if_pos h2]

/-- For an increasing grid strictly inside the extension and at least one bin above it, the convolution is evaluated on a strictly increasing grid from
`low_energy` to `high_energy` that contains the grid, and the bins returned are those of the grid: bin `i` of the result is the bin from edge `i` to edge
`i + 1`.  (Missing: a grid that begins at `low_energy` or ends at `high_energy`, `C91_touching_refuted`; no bins above, `C91_nhigh_refuted`.) -/
theorem C91_convolution_partial (x : Extension) (conv : List ℝ → List ℝ → List ℝ) (model : ModelFn) (egrid : List ℝ) (hne : egrid ≠ [])
    (hc : egrid.IsChain (· < ·)) (h0 : 0 < x.low) (hlow : x.low < egrid.head hne) (hhigh : egrid.getLast hne < x.high) (hn : x.nhigh ≠ 0)
    (hconv : ∀ g v, (conv g v).length = g.length - 1) :
    ∃ ext, ext.IsChain (· < ·) ∧ ext.length = x.nlow + egrid.length + x.nhigh ∧ (x.nlow ≠ 0 → ext.head? = some x.low) ∧ ext.getLast? = some x.high ∧
      ((ext.drop x.nlow).take egrid.length = egrid) ∧
      ∃ out, convolved x conv model egrid = .ok out ∧ out.length = egrid.length - 1 ∧
        ∀ i, i + 1 < egrid.length → out[i]? = (conv ext (model ext))[x.nlow + i]? ∧ ext[x.nlow + i]? = egrid[i]? ∧ ext[x.nlow + i + 1]? = egrid[i + 1]? := by
  cases egrid with
  | nil => exact absurd rfl hne
  | cons e es =>
    obtain ⟨pre, p1, p2, p3, p4⟩ := extendLow_spec x e es h0 hlow hc
    have hne2 : pre ++ e :: es ≠ [] := by simp
    have hlast : (pre ++ e :: es).getLast hne2 = (e :: es).getLast hne := List.getLast_append_of_ne_nil _ _
    have hpos : 0 < (e :: es).getLast hne := by
      have he : 0 < e := h0.trans hlow
      have hmem := List.getLast_mem hne
      rcases List.mem_cons.1 hmem with h | h
      · rw [h]; exact he
      · have := (List.isChain_iff_pairwise.1 hc)
        rw [List.pairwise_cons] at this
        exact he.trans (this.1 _ h)
    obtain ⟨post, q1, q2, q3, q4⟩ := extendHigh_spec x (pre ++ e :: es) hne2 (by rw [hlast]; exact hpos) (by rw [hlast]; exact hhigh) p3
    refine ⟨pre ++ e :: es ++ post, q3, ?_, ?_, ?_, ?_, sliceNeg (conv (pre ++ e :: es ++ post) (model (pre ++ e :: es ++ post))) x.nlow x.nhigh, ?_, ?_, ?_⟩
    · simp [p2, q2]; omega
    · intro h
      have := p4 h
      cases pre with
      | nil => simp at this
      | cons a pre => simpa using this
    · have := q4 hn
      rw [List.getLast?_append, this]
      rfl
    · rw [List.append_assoc, ← p2, List.drop_left, List.take_left']
      rfl
    · simp only [convolved, bind, Except.bind, p1, q1]
    · have hl := hconv (pre ++ e :: es ++ post) (model (pre ++ e :: es ++ post))
      simp only [sliceNeg, if_neg hn, List.length_drop, List.length_take, hl, List.length_append, p2, q2, List.length_cons]
      omega
    · intro i hi
      have hl := hconv (pre ++ e :: es ++ post) (model (pre ++ e :: es ++ post))
      have key : ∀ k, k < (e :: es).length → (pre ++ e :: es ++ post)[x.nlow + k]? = (e :: es)[k]? := by
        intro k hk
        rw [List.append_assoc, List.getElem?_append_right (by omega), p2, Nat.add_sub_cancel_left, List.getElem?_append_left hk]
      refine ⟨?_, key i (by omega), ?_⟩
      · rw [sliceNeg, if_neg hn, List.getElem?_drop, List.getElem?_take_of_lt]
        rw [hl]
        simp only [List.length_append, p2, q2]
        omega
      · rw [Nat.add_assoc]
        exact key (i + 1) hi

/-- A convolution that changes nothing leaves every spectrum given bin by bin as it is. -/
theorem C91_identity (x : Extension) (f : ℝ → ℝ → ℝ) (egrid : List ℝ) (hne : egrid ≠ []) (hc : egrid.IsChain (· < ·)) (h0 : 0 < x.low)
    (hlow : x.low < egrid.head hne) (hhigh : egrid.getLast hne < x.high) (hn : x.nhigh ≠ 0) :
    convolved x (fun g v => v.take (g.length - 1) ++ List.replicate (g.length - 1 - v.length) 0) (perBin f) egrid = .ok (perBin f egrid) := by
  obtain ⟨ext, -, e2, -, -, -, out, o1, o2, o3⟩ := C91_convolution_partial x (fun g v => v.take (g.length - 1) ++ List.replicate (g.length - 1 - v.length) 0)
    (perBin f) egrid hne hc h0 hlow hhigh hn (by intro g v; simp; omega)
  rw [o1]
  congr 1
  apply List.ext_getElem?
  intro i
  have hlen : (perBin f ext).length = ext.length - 1 := perBin_length f ext
  rcases Nat.lt_or_ge (i + 1) egrid.length with hi | hi
  · obtain ⟨a1, a2, a3⟩ := o3 i hi
    have hsimp : (perBin f ext).take (ext.length - 1) ++ List.replicate (ext.length - 1 - (perBin f ext).length) 0 = perBin f ext := by
      rw [hlen, Nat.sub_self, List.replicate_zero, List.append_nil, List.take_of_length_le (by omega)]
    rw [a1, hsimp, perBin_getElem?, perBin_getElem?, a2, a3]
  · rw [List.getElem?_eq_none (by omega), List.getElem?_eq_none (by rw [perBin_length]; omega)]

/-- With `high_ngrid=0` the slice `[nlow:-0]` is empty: the convolved model has no bins at all. -/
theorem C91_nhigh_refuted (x : Extension) (hn : x.nhigh = 0) (conv : List ℝ → List ℝ → List ℝ) (model : ModelFn) (egrid out : List ℝ)
    (h : convolved x conv model egrid = .ok out) : out = [] := by
  cases egrid with
  | nil => cases h
  | cons e es =>
    simp only [convolved, bind, Except.bind] at h
    split at h
    · cases h
    · split at h
      · cases h
      · cases h
        simp [sliceNeg, hn]

/-- A grid that begins exactly at `low_energy` (or ends at `high_energy`: 100 keV by default) is accepted, although the message of the error says that it must be
inside; then the extension consists of bins of no width. -/
theorem C91_touching_refuted : ∃ (x : Extension) (ext : List ℝ), x.nlow = 2 ∧ extendLow x 1 [2, 3] = .ok ext ∧ ext = [1, 1, 1, 2, 3] := by
  refine ⟨⟨1, 2, false, 100, 100, true⟩, _, rfl, ?_, rfl⟩
  norm_num [extendLow, grid, bandGrid, linspace, List.range_succ]

/-- **C91 (default settings).**  With the settings left out, energies below 0.01 and above 100 keV are refused, and any increasing grid strictly between is
evaluated on 100 more edges on either side, from 0.01 to 100 keV. -/
theorem C91_defaults (conv : List ℝ → List ℝ → List ℝ) (model : ModelFn) (egrid : List ℝ) (hne : egrid ≠ []) (hc : egrid.IsChain (· < ·))
    (hconv : ∀ g v, (conv g v).length = g.length - 1) :
    ((egrid.head hne < 0.01 ∨ 100 < egrid.getLast hne) → convolved defaults conv model egrid = .error .runtimeError) ∧
    (0.01 < egrid.head hne → egrid.getLast hne < 100 →
      ∃ ext, ext.IsChain (· < ·) ∧ ext.length = 100 + egrid.length + 100 ∧ ext.head? = some 0.01 ∧ ext.getLast? = some 100 ∧
        ((ext.drop 100).take egrid.length = egrid) ∧ ∃ out, convolved defaults conv model egrid = .ok out ∧ out.length = egrid.length - 1 ∧
          ∀ i, i + 1 < egrid.length → out[i]? = (conv ext (model ext))[100 + i]?) := by
  constructor
  · intro h
    cases egrid with
    | nil => exact absurd rfl hne
    | cons e es => exact C91_range defaults conv model e es h
  · intro h1 h2
    obtain ⟨ext, a1, a2, a3, a4, a5, out, a6, a7, a8⟩ :=
      C91_convolution_partial defaults conv model egrid hne hc (by norm_num [defaults]) h1 h2 (by norm_num [defaults]) hconv
    exact ⟨ext, a1, a2, a3 (by norm_num [defaults]), a4, a5, out, a6, a7, fun i hi => (a8 i hi).1⟩

/-- The default extension and a grid from 0.5 to 20 keV meet the hypotheses. -/
example : ([0.5, 2, 20] : List ℝ).IsChain (· < ·) ∧ (0 : ℝ) < defaults.low ∧ defaults.low < ([0.5, 2, 20] : List ℝ).head (by simp) ∧
    ([0.5, 2, 20] : List ℝ).getLast (by simp) < defaults.high ∧ defaults.nhigh ≠ 0 := by
  norm_num [defaults]

/-- A convolution is applied to additive models, or to multiplicative ones for the three that XSPEC defines so. -/
theorem C91_supports (name : String) (add : Bool) :
    supports name add = true ↔ (add = true ↔ ¬ (name = "partcov" ∨ name = "vmshift" ∨ name = "zmshift")) := by
  unfold supports
  split_ifs with h
  · simp only [List.mem_cons, List.not_mem_nil, or_false] at h
    cases add <;> simp [h]
  · simp only [List.mem_cons, List.not_mem_nil, or_false, not_or] at h
    cases add <;> simp [h.1, h.2.1, h.2.2]

end Elisa.Models.Xspec
