import Verif.Plot.Request

/-!
# C95: the plots asked for are the plots shown
-/

namespace Elisa.Plot

open Elisa

/-! ## Splitting -/

/-- A request: words with white space between them. -/
def writeWords : List (List Char) → List (List Char) → List Char
  | [], _ => []
  | [w], _ => w
  | w :: ws, [] => w ++ writeWords ws []
  | w :: ws, g :: gs => w ++ g ++ writeWords ws gs

theorem splitGo_word (ws : Char → Bool) (w : List Char) (hw : ∀ c ∈ w, ws c = false) (cur rest : List Char) (sep : Bool) (hne : w ≠ []) :
    splitGo ws cur sep (w ++ rest) = splitGo ws (cur ++ w) false rest := by
  induction w generalizing cur sep with
  | nil => exact absurd rfl hne
  | cons c w ih =>
    have hc : ws c = false := hw c (by simp)
    rw [List.cons_append, splitGo, hc]
    cases w with
    | nil => rfl
    | cons d w =>
      have := ih (fun c hc => hw c (by simp [hc])) (cur ++ [c]) false (by simp)
      simp only [Bool.false_eq_true, if_false]
      rw [this, List.append_assoc]
      rfl

theorem splitGo_gap (ws : Char → Bool) (g : List Char) (hg : ∀ c ∈ g, ws c = true) (rest : List Char) :
    splitGo ws [] true (g ++ rest) = splitGo ws [] true rest := by
  induction g with
  | nil => rfl
  | cons c g ih =>
    have hc : ws c = true := hg c (by simp)
    rw [List.cons_append, splitGo, hc]
    simp only [if_true]
    exact ih fun c h => hg c (by simp [h])

theorem splitGo_words (ws : Char → Bool) (words gaps : List (List Char)) (hl : words.length = gaps.length + 1)
    (hw : ∀ w ∈ words, w ≠ [] ∧ ∀ c ∈ w, ws c = false) (hg : ∀ g ∈ gaps, g ≠ [] ∧ ∀ c ∈ g, ws c = true) (sep : Bool) :
    splitGo ws [] sep (writeWords words gaps) = words := by
  induction words generalizing gaps sep with
  | nil => simp at hl
  | cons w rest ih =>
    obtain ⟨hwne, hwc⟩ := hw w (by simp)
    cases rest with
    | nil =>
      show splitGo ws [] sep w = [w]
      have := splitGo_word ws w hwc [] [] sep hwne
      rw [List.append_nil] at this
      rw [this]
      rfl
    | cons w' rest =>
      cases gaps with
      | nil => simp at hl
      | cons g gaps =>
        show splitGo ws [] sep (w ++ g ++ writeWords (w' :: rest) gaps) = _
        rw [List.append_assoc, splitGo_word ws w hwc [] _ sep hwne, List.nil_append]
        obtain ⟨hgne, hgc⟩ := hg g (by simp)
        cases g with
        | nil => exact absurd rfl hgne
        | cons c g =>
          have hc : ws c = true := hgc c (by simp)
          rw [List.cons_append, splitGo, hc]
          simp only [if_true, Bool.false_eq_true, if_false]
          rw [splitGo_gap ws g (fun c h => hgc c (by simp [h])), ih gaps (by simpa using hl) (fun w h => hw w (by simp [h])) (fun g h => hg g (by simp [h]))]

/-- **C95 (words).**  Words separated by any amount of white space are read as these words. -/
theorem C95_words (ws : Char → Bool) (words gaps : List (List Char)) (hl : words.length = gaps.length + 1)
    (hw : ∀ w ∈ words, w ≠ [] ∧ ∀ c ∈ w, ws c = false) (hg : ∀ g ∈ gaps, g ≠ [] ∧ ∀ c ∈ g, ws c = true) :
    splitWs ws (writeWords words gaps) = words.map String.ofList := by
  unfold splitWs
  rw [splitGo_words ws words gaps hl hw hg]

example : splitWs (fun c => c == ' ') "data  ne r".toList = ["data", "ne", "r"] := by decide

/-- **C95 (unknown).**  A request with a word that is not supported is refused. -/
theorem C95_unknown (ws : Char → Bool) (mle sims : Bool) (default : String) (s : List Char) (w : String) (hw : w ∈ splitWs ws s)
    (hn : w ∉ (if mle then mleSupported else postSupported)) : callPlots ws mle sims default s = .error .valueError := by
  unfold callPlots
  have : (splitWs ws s).any (fun p => p ∉ (if mle then mleSupported else postSupported)) = true := by
    rw [List.any_eq_true]
    exact ⟨w, hw, decide_eq_true hn⟩
  rw [if_pos this]

/-- White space before the first word (or after the last) is not ignored: the request is refused, and so is an empty one. -/
theorem C95_space_refuted (ws : Char → Bool) (mle sims : Bool) (default : String) (c : Char) (hc : ws c = true) (s : List Char) :
    callPlots ws mle sims default (c :: s) = .error .valueError ∧ callPlots ws mle sims default [] = .error .valueError := by
  constructor
  · apply C95_unknown ws mle sims default (c :: s) ""
    · unfold splitWs
      rw [splitGo, hc]
      simp
    · cases mle <;> decide
  · apply C95_unknown ws mle sims default [] ""
    · unfold splitWs
      simp [splitGo]
    · cases mle <;> decide

/-! ## Figures -/

theorem needs_sims (mle : Bool) (n : String) : needs mle true n = .ok () := rfl

theorem others_ok (mle : Bool) (l : List String) :
    (l.mapM fun n => (do needs mle true n; return (n, Fig.other) : Except PyErr (String × Fig))) = .ok (l.map fun n => (n, Fig.other)) := by
  induction l with
  | nil => rfl
  | cons a l ih => rw [List.mapM_cons, ih]; rfl

/-- **C95 (figures).**  With simulations, a request of supported words gives a figure for the spectrum exactly when a word of it is asked for, and each other figure exactly when
its word is; nothing else. -/
theorem C95_figures (ws : Char → Bool) (mle : Bool) (default : String) (s : List Char)
    (h : ∀ w ∈ splitWs ws s, w ∈ (if mle then mleSupported else postSupported)) :
    ∃ figs, callPlots ws mle true default s = .ok figs ∧ (figs.map Prod.fst).Nodup ∧
      ("spec" ∈ figs.map Prod.fst ↔ ∃ w ∈ splitWs ws s, w ∈ specWords) ∧
      (∀ n, n ≠ "spec" → (n ∈ figs.map Prod.fst ↔ n ∈ splitWs ws s ∧ n ∉ specWords)) ∧
      ∀ f, ("spec", f) ∈ figs → f = .spec (specPanels default (splitWs ws s)) := by
  set plots := splitWs ws s with hp
  have hno : plots.any (fun p => p ∉ (if mle then mleSupported else postSupported)) = false := by
    rw [List.any_eq_false]
    intro w hw
    simp only [decide_eq_true_eq, not_not]
    exact h w hw
  have hothers : ∀ n ∈ otherFigs mle, n ≠ "spec" ∧ n ∉ specWords := by
    cases mle <;> decide
  have hcover : ∀ n ∈ (if mle then mleSupported else postSupported), n ∉ specWords → n ∈ otherFigs mle := by
    cases mle <;> decide
  have hnd : (otherFigs mle).Nodup := by
    cases mle <;> decide
  let spec : List (String × Fig) := if plots.any (fun p => p ∈ specWords) then [("spec", Fig.spec (specPanels default plots))] else []
  let oth : List (String × Fig) := ((otherFigs mle).filter (fun n => n ∈ plots)).map fun n => (n, Fig.other)
  have hoth : oth.map Prod.fst = (otherFigs mle).filter (fun n => n ∈ plots) := by
    show (List.map Prod.fst (List.map _ _)) = _
    rw [List.map_map]
    exact List.map_id _
  have hmo : ∀ n, n ∈ oth.map Prod.fst ↔ n ∈ otherFigs mle ∧ n ∈ plots := by
    intro n
    rw [hoth, List.mem_filter]
    simp
  have hspec : ∀ n, n ∈ spec.map Prod.fst ↔ n = "spec" ∧ ∃ w ∈ plots, w ∈ specWords := by
    intro n
    by_cases hc : plots.any (fun p => p ∈ specWords) = true
    · have he : spec = [("spec", Fig.spec (specPanels default plots))] := if_pos hc
      rw [he]
      rw [List.any_eq_true] at hc
      obtain ⟨w, hw, hws⟩ := hc
      simp only [decide_eq_true_eq] at hws
      simp only [List.map_cons, List.map_nil, List.mem_singleton]
      exact ⟨fun h => ⟨h, w, hw, hws⟩, fun h => h.1⟩
    · have he : spec = [] := if_neg hc
      rw [he]
      simp only [List.map_nil, List.not_mem_nil, false_iff, not_and]
      rintro - ⟨w, hw, hws⟩
      exact hc (List.any_eq_true.2 ⟨w, hw, decide_eq_true hws⟩)
  refine ⟨spec ++ oth, ?_, ?_, ?_, ?_, ?_⟩
  · unfold callPlots
    simp only [← hp]
    rw [hno]
    simp only [Bool.false_eq_true, if_false, figures]
    rw [others_ok]
    rfl
  · rw [List.map_append, List.nodup_append]
    refine ⟨?_, by rw [hoth]; exact hnd.filter _, ?_⟩
    · show (List.map Prod.fst (if _ then _ else _)).Nodup
      split <;> simp
    · intro a ha b hb hab
      subst hab
      exact (hothers a ((hmo a).1 hb).1).1 ((hspec a).1 ha).1
  · rw [List.map_append, List.mem_append, hspec]
    constructor
    · rintro (⟨-, hw⟩ | hm)
      · exact hw
      · exact absurd rfl (hothers "spec" ((hmo _).1 hm).1).1
    · exact fun hw => Or.inl ⟨rfl, hw⟩
  · intro n hn
    rw [List.map_append, List.mem_append, hspec, hmo]
    constructor
    · rintro (⟨rfl, -⟩ | ⟨h1, h2⟩)
      · exact absurd rfl hn
      · exact ⟨h2, (hothers n h1).2⟩
    · rintro ⟨h1, h2⟩
      exact Or.inr ⟨hcover n (h n h1) h2, h1⟩
  · intro f hf
    rcases List.mem_append.1 hf with hf | hf
    · have : spec = [("spec", Fig.spec (specPanels default plots))] ∨ spec = [] := by
        show (if _ then _ else _) = _ ∨ (if _ then _ else _) = _
        split
        · exact Or.inl rfl
        · exact Or.inr rfl
      rcases this with e | e
      · rw [e] at hf
        simpa using hf
      · rw [e] at hf
        simp at hf
    · exact absurd rfl (hothers "spec" ((hmo _).1 (List.mem_map.2 ⟨_, hf, rfl⟩)).1).1

/-- Without simulations a corner plot of a maximum likelihood fit and a goodness-of-fit plot are refused, and then nothing is returned. -/
theorem C95_needs (mle : Bool) (default : String) (plots : List String) :
    ("gof" ∈ plots ∨ (mle = true ∧ "corner" ∈ plots) → ∃ e, figures mle false default plots = .error e) ∧
    (¬ ("gof" ∈ plots) → ¬ (mle = true ∧ "corner" ∈ plots) → ∃ figs, figures mle false default plots = .ok figs ∧ figures mle true default plots = .ok figs) := by
  have hmap : ∀ l : List String, (∀ n ∈ l, needs mle false n = .ok ()) →
      (l.mapM fun n => (do needs mle false n; return (n, Fig.other) : Except PyErr (String × Fig))) = .ok (l.map fun n => (n, Fig.other)) := by
    intro l hl
    induction l with
    | nil => rfl
    | cons a l ih => rw [List.mapM_cons, ih fun n hn => hl n (by simp [hn]), hl a (by simp)]; rfl
  have herr : ∀ (l : List String) n e, n ∈ l → needs mle false n = .error e →
      ∃ e, (l.mapM fun n => (do needs mle false n; return (n, Fig.other) : Except PyErr (String × Fig))) = .error e := by
    intro l n e hn he
    induction l with
    | nil => simp at hn
    | cons a l ih =>
      rw [List.mapM_cons]
      rcases ha : needs mle false a with e' | u
      · exact ⟨e', rfl⟩
      · rcases List.mem_cons.1 hn with rfl | hn
        · rw [he] at ha
          exact absurd ha (by simp)
        · obtain ⟨e'', h⟩ := ih hn
          refine ⟨e'', ?_⟩
          rw [h]
          rfl
  constructor
  · intro h
    have : ∃ n e, n ∈ (otherFigs mle).filter (fun n => n ∈ plots) ∧ needs mle false n = .error e := by
      rcases h with h | ⟨rfl, h⟩
      · refine ⟨"gof", .runtimeError, List.mem_filter.2 ⟨by cases mle <;> decide, decide_eq_true h⟩, by cases mle <;> decide⟩
      · exact ⟨"corner", .valueError, List.mem_filter.2 ⟨by decide, decide_eq_true h⟩, by decide⟩
    obtain ⟨n, e, hn, he⟩ := this
    obtain ⟨e', h'⟩ := herr _ n e hn he
    refine ⟨e', ?_⟩
    unfold figures
    rw [h']
    rfl
  · intro hg hc
    have hok : ∀ n ∈ (otherFigs mle).filter (fun n => n ∈ plots), needs mle false n = .ok () := by
      intro n hn
      obtain ⟨-, hn⟩ := List.mem_filter.1 hn
      have hn : n ∈ plots := by simpa using hn
      unfold needs
      have h1 : ¬ (n = "corner" ∧ mle = true) := fun h => hc ⟨h.2, h.1 ▸ hn⟩
      have h2 : ¬ n = "gof" := fun h => hg (h ▸ hn)
      rw [if_neg (by simp), if_neg h1, if_neg h2]
    refine ⟨(if plots.any (fun p => p ∈ specWords) then [("spec", Fig.spec (specPanels default plots))] else []) ++
      ((otherFigs mle).filter (fun n => n ∈ plots)).map fun n => (n, Fig.other), ?_, ?_⟩
    · unfold figures
      rw [hmap _ hok]
      rfl
    · unfold figures
      rw [others_ok]
      rfl

/-- **C95 (panels).**  The spectral figure has the panels asked for, each once: the folded spectrum for `data`, `N(E)` for `ne`, `E N(E)` for `ene` (labelled `Fv` or `FvJy` if so
asked), `E^2 N(E)` for `eene` (or `vFv`) and residuals for `r`, `rd`, `rp` or `rq`. -/
theorem C95_panels (default : String) (plots : List String) :
    ((specPanels default plots).map Prod.fst).Nodup ∧
    ("ce" ∈ (specPanels default plots).map Prod.fst ↔ "data" ∈ plots) ∧
    ("ne" ∈ (specPanels default plots).map Prod.fst ↔ "ne" ∈ plots) ∧
    ("ene" ∈ (specPanels default plots).map Prod.fst ↔ "ene" ∈ plots ∨ "Fv" ∈ plots ∨ "FvJy" ∈ plots) ∧
    ("eene" ∈ (specPanels default plots).map Prod.fst ↔ "eene" ∈ plots ∨ "vFv" ∈ plots) ∧
    ("residuals" ∈ (specPanels default plots).map Prod.fst ↔ "r" ∈ plots ∨ "rd" ∈ plots ∨ "rp" ∈ plots ∨ "rq" ∈ plots) := by
  have hene : plots.any (fun p => p ∈ ["ene", "Fv", "FvJy"]) = true ↔ "ene" ∈ plots ∨ "Fv" ∈ plots ∨ "FvJy" ∈ plots := by
    rw [List.any_eq_true]
    constructor
    · rintro ⟨p, hp, h⟩
      simp at h
      rcases h with rfl | rfl | rfl
      · exact Or.inl hp
      · exact Or.inr (Or.inl hp)
      · exact Or.inr (Or.inr hp)
    · rintro (h | h | h)
      · exact ⟨_, h, by decide⟩
      · exact ⟨_, h, by decide⟩
      · exact ⟨_, h, by decide⟩
  have heene : plots.any (fun p => p ∈ ["eene", "vFv"]) = true ↔ "eene" ∈ plots ∨ "vFv" ∈ plots := by
    rw [List.any_eq_true]
    constructor
    · rintro ⟨p, hp, h⟩
      simp at h
      rcases h with rfl | rfl
      · exact Or.inl hp
      · exact Or.inr hp
    · rintro (h | h)
      · exact ⟨_, h, by decide⟩
      · exact ⟨_, h, by decide⟩
  have hres : (residualWord plots).isSome ↔ "r" ∈ plots ∨ "rd" ∈ plots ∨ "rp" ∈ plots ∨ "rq" ∈ plots := by
    unfold residualWord
    rw [List.getLast?_isSome]
    constructor
    · intro h
      obtain ⟨p, hp⟩ := List.exists_mem_of_ne_nil _ h
      obtain ⟨hp, h⟩ := List.mem_filter.1 hp
      simp at h
      rcases h with rfl | rfl | rfl | rfl
      · exact Or.inl hp
      · exact Or.inr (Or.inl hp)
      · exact Or.inr (Or.inr (Or.inl hp))
      · exact Or.inr (Or.inr (Or.inr hp))
    · rintro h hc
      rw [List.filter_eq_nil_iff] at hc
      rcases h with h | h | h | h
      · exact hc _ h (by decide)
      · exact hc _ h (by decide)
      · exact hc _ h (by decide)
      · exact hc _ h (by decide)
  rw [← hene, ← heene, ← hres]
  unfold specPanels
  by_cases h1 : "data" ∈ plots <;> by_cases h2 : "ne" ∈ plots <;>
    by_cases h3 : plots.any (fun p => p ∈ ["ene", "Fv", "FvJy"]) = true <;> by_cases h4 : plots.any (fun p => p ∈ ["eene", "vFv"]) = true <;>
    rcases h5 : residualWord plots with _ | w <;> simp only [h1, h2, h3, h4, if_true, if_false] <;> simp

/-- **C95 (residuals).**  The residuals shown are of the type asked for last; `r` stands for the configured type. -/
theorem C95_residuals (default : String) (before after : List String) (w : String) (hw : w ∈ ["r", "rd", "rp", "rq"]) (ha : ∀ x ∈ after, x ∉ ["r", "rd", "rp", "rq"]) :
    ("residuals", if w = "r" then default else w) ∈ specPanels default (before ++ w :: after) := by
  have : residualWord (before ++ w :: after) = some w := by
    unfold residualWord
    have hf : after.filter (fun i => decide (i ∈ ["r", "rd", "rp", "rq"])) = [] := by
      rw [List.filter_eq_nil_iff]
      intro x hx
      simp only [decide_eq_true_eq]
      exact ha x hx
    have hc : (w :: after).filter (fun i => decide (i ∈ ["r", "rd", "rp", "rq"])) = w :: after.filter (fun i => decide (i ∈ ["r", "rd", "rp", "rq"])) :=
      List.filter_cons_of_pos (decide_eq_true hw)
    rw [List.filter_append, hc, hf, List.getLast?_append]
    rfl
  unfold specPanels
  rw [this]
  exact List.mem_append_right _ (by simp [residualType])

/-- **C95 (labels).**  The label of the panel of `E N(E)` is `FvJy` exactly if this word is asked for, else `Fv` exactly if that is, else `ene`; the label of the panel of
`E^2 N(E)` is `vFv` exactly if this is asked for, else `eene`. -/
theorem C95_labels (default : String) (plots : List String) (l : String) :
    (("ene", l) ∈ specPanels default plots ↔ (l = "FvJy" ∧ "FvJy" ∈ plots) ∨ (l = "Fv" ∧ "Fv" ∈ plots ∧ "FvJy" ∉ plots) ∨
      (l = "ene" ∧ "ene" ∈ plots ∧ "Fv" ∉ plots ∧ "FvJy" ∉ plots)) ∧
    (("eene", l) ∈ specPanels default plots ↔ (l = "vFv" ∧ "vFv" ∈ plots) ∨ (l = "eene" ∧ "eene" ∈ plots ∧ "vFv" ∉ plots)) := by
  have h1 : plots.any (fun p => decide (p ∈ ["ene", "Fv", "FvJy"])) = true ↔ "ene" ∈ plots ∨ "Fv" ∈ plots ∨ "FvJy" ∈ plots := by
    simp only [List.any_eq_true, decide_eq_true_eq, List.mem_cons, List.not_mem_nil, or_false]
    constructor
    · rintro ⟨p, hp, rfl | rfl | rfl⟩ <;> simp [hp]
    · rintro (h | h | h)
      · exact ⟨_, h, .inl rfl⟩
      · exact ⟨_, h, .inr (.inl rfl)⟩
      · exact ⟨_, h, .inr (.inr rfl)⟩
  have h2 : plots.any (fun p => decide (p ∈ ["eene", "vFv"])) = true ↔ "eene" ∈ plots ∨ "vFv" ∈ plots := by
    simp only [List.any_eq_true, decide_eq_true_eq, List.mem_cons, List.not_mem_nil, or_false]
    constructor
    · rintro ⟨p, hp, rfl | rfl⟩ <;> simp [hp]
    · rintro (h | h)
      · exact ⟨_, h, .inl rfl⟩
      · exact ⟨_, h, .inr rfl⟩
  unfold specPanels
  simp only [h1, h2, eneLabel, eeneLabel]
  rcases hw : residualWord plots with _ | w <;>
  by_cases a : "data" ∈ plots <;> by_cases b : "ne" ∈ plots <;> by_cases c : "ene" ∈ plots <;> by_cases d : "Fv" ∈ plots <;>
    by_cases e : "FvJy" ∈ plots <;> by_cases f : "eene" ∈ plots <;> by_cases g : "vFv" ∈ plots <;> simp [a, b, c, d, e, f, g]

example : ("ene", "Fv") ∈ specPanels "rq" ["Fv", "data"] := ((C95_labels _ _ _).1).2 (by decide)

/-- Two ways of showing `E N(E)`, or two types of residuals, asked for together: only one panel is made, the others are left out without notice. -/
theorem C95_both_refuted :
    specPanels "rq" ["ene", "FvJy"] = [("ene", "FvJy")] ∧ specPanels "rq" ["eene", "vFv"] = [("eene", "vFv")] ∧
    specPanels "rq" ["rd", "rp"] = [("residuals", "rp")] := by decide

example : callPlots (fun c => c == ' ') true false "rq" "data ne r".toList = .ok [("spec", .spec [("ce", "ce"), ("ne", "ne"), ("residuals", "rq")])] := by decide

/-- **C95 (jansky).**  The factor from erg/cm²/s/keV to Jy is Planck's constant in keV s (from the exact SI values of `h` and `e`) over 1e-23, to within a part in
`10 ^ 14`. -/
theorem C95_jansky : let h : ℚ := 6.62607015e-34
    let e : ℚ := 1.602176634e-19
    |fvKevToJy - h / (1000 * e) / 1e-23| < fvKevToJy / 10 ^ 14 := by
  norm_num [fvKevToJy, abs_lt]

end Elisa.Plot
