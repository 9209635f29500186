import Verif.Plot.Settings
import Verif.Plot.BandsProps

/-!
# C100: the settings of plots
-/

namespace Elisa.Plot.Settings

open Elisa

/-- Settings a plot can use, as documented. -/
structure Valid {P : Type} (c : Config P) : Prop where
  alpha : 0 < c.alpha ∧ c.alpha ≤ 1
  xscale : c.xscale = "linear" ∨ c.xscale = "log"
  yscale : c.yscale = "linear" ∨ c.yscale = "log" ∨ c.yscale = "linlog"
  linFrac : 0 < c.linFrac ∧ c.linFrac ≤ 1 / 2
  cl : (∀ x ∈ c.cl, 0 < x ∧ x < 1) ∧ c.cl.Pairwise (· ≤ ·)
  residuals : c.residuals = "rd" ∨ c.residuals = "rp" ∨ c.residuals = "rq"

/-- Values the documentation allows for an attribute. -/
def Allowed {P : Type} : Setting P → Prop
  | .alpha x => ∃ v, x = .fin v ∧ 0 < v ∧ v ≤ 1
  | .xscale s => s = "linear" ∨ s = "log"
  | .yscale s => s = "linear" ∨ s = "log" ∨ s = "linlog"
  | .linFrac x => ∃ v, x = .fin v ∧ 0 < v ∧ v ≤ 1 / 2
  | .cl xs => ∃ vs : List ℝ, xs = vs.map .fin ∧ ∀ v ∈ vs, 0 < v ∧ v < 1
  | .residuals s => s = "rd" ∨ s = "rp" ∨ s = "rq"
  | _ => True

/-- After the assignment the attribute has the value given (levels are sorted), and no other attribute has changed. -/
def Took {P : Type} (c c' : Config P) : Setting P → Prop
  | .alpha x => ∃ v, x = .fin v ∧ c' = { c with alpha := v }
  | .palette p => c' = { c with palette := p }
  | .xscale s => c' = { c with xscale := s }
  | .yscale s => c' = { c with yscale := s }
  | .linFrac x => ∃ v, x = .fin v ∧ c' = { c with linFrac := v }
  | .cl xs => ∃ vs s : List ℝ, xs = vs.map .fin ∧ s.Perm vs ∧ s.Pairwise (· ≤ ·) ∧ c' = { c with cl := s }
  | .residuals s => c' = { c with residuals := s }
  | .randomQuantile b => c' = { c with randomQuantile := b }
  | .markOutlier b => c' = { c with markOutlier := b }
  | .ciWithSign b => c' = { c with ciWithSign := b }
  | .fillCi b => c' = { c with fillCi := b }
  | .plotComps b => c' = { c with plotComps := b }
  | .seed s => c' = { c with seed := s }

theorem inRange_ok {hi : ℝ} {x : Num} {v : ℝ} : inRange hi x = .ok v ↔ x = .fin v ∧ 0 < v ∧ v ≤ hi := by
  cases x with
  | fin y =>
    simp only [inRange]
    split
    · rename_i h
      constructor
      · intro e; cases e; exact ⟨rfl, h⟩
      · rintro ⟨e, -⟩; cases e; rfl
    · rename_i h
      constructor
      · intro e; cases e
      · rintro ⟨e, h'⟩; cases e; exact absurd h' h
  | nan => simp [inRange]
  | inf p => simp [inRange]
  | bad => simp [inRange]

theorem oneOf_ok {l : List String} {s v : String} : oneOf l s = .ok v ↔ v = s ∧ s ∈ l := by
  unfold oneOf
  split
  · rename_i h
    constructor
    · intro e; cases e; exact ⟨rfl, h⟩
    · rintro ⟨rfl, -⟩; rfl
  · rename_i h
    constructor
    · intro e; cases e
    · rintro ⟨-, h'⟩; exact absurd h' h

theorem levels_ok {xs : List Num} {vs : List ℝ} : levels xs = .ok vs ↔ xs = vs.map .fin := by
  induction xs generalizing vs with
  | nil =>
    constructor
    · intro e; cases e; rfl
    · intro e
      cases vs with
      | nil => rfl
      | cons a l => cases e
  | cons x l ih =>
    have bad : ∀ e : PyErr, (Except.error e : Except PyErr (List ℝ)) = .ok vs → False := fun e h => by cases h
    cases x with
    | fin y =>
      simp only [levels]
      cases hl : levels l with
      | error e =>
        constructor
        · intro h; cases h
        · intro h
          cases vs with
          | nil => cases h
          | cons a l' =>
            rw [List.map_cons] at h
            injection h with _ h2
            rw [ih.2 h2] at hl
            cases hl
      | ok l' =>
        have := ih.1 hl
        constructor
        · intro h; cases h; rw [List.map_cons, ← this]
        · intro h
          cases vs with
          | nil => cases h
          | cons a l'' =>
            rw [List.map_cons] at h
            injection h with h1 h2
            injection h1 with h1
            rw [ih.2 h2] at hl
            cases hl
            rw [h1]
            rfl
    | nan =>
      constructor
      · intro h; exact (bad _ h).elim
      · intro h; cases vs <;> simp at h
    | inf p =>
      constructor
      · intro h; exact (bad _ h).elim
      · intro h; cases vs <;> simp at h
    | bad =>
      constructor
      · intro h; exact (bad _ h).elim
      · intro h; cases vs <;> simp at h

theorem cl_ok {xs : List Num} {s : List ℝ} : (levels xs).bind setCl = .ok s → ∃ vs : List ℝ, xs = vs.map .fin ∧ s.Perm vs ∧ s.Pairwise (· ≤ ·) ∧ ∀ v ∈ vs, 0 < v ∧ v < 1 := by
  intro h
  cases hl : levels xs with
  | error e => rw [hl] at h; cases h
  | ok vs =>
    rw [hl] at h
    have h : setCl vs = .ok s := h
    obtain ⟨h1, h2⟩ := C93_levels vs
    obtain ⟨a, b, -⟩ := h2 s h
    exact ⟨vs, levels_ok.1 hl, a, b, h1.1 ⟨s, h⟩⟩

theorem cl_iff {xs : List Num} : (∃ s, (levels xs).bind setCl = .ok s) ↔ ∃ vs : List ℝ, xs = vs.map .fin ∧ ∀ v ∈ vs, 0 < v ∧ v < 1 := by
  constructor
  · rintro ⟨s, h⟩
    obtain ⟨vs, h1, -, -, h4⟩ := cl_ok h
    exact ⟨vs, h1, h4⟩
  · rintro ⟨vs, h1, h2⟩
    obtain ⟨s, hs⟩ := (C93_levels vs).1.2 h2
    exact ⟨s, by rw [levels_ok.2 h1]; exact hs⟩

theorem map_ok {A B E : Type} {x : Except E A} {f : A → B} {b : B} : x.map f = .ok b ↔ ∃ a, x = .ok a ∧ f a = b := by
  cases x with
  | error e => simp [Except.map]
  | ok a => simp [Except.map]

theorem half_eq : (0.5 : ℝ) = 1 / 2 := by norm_num

/-- **C100 (one assignment).**  An assignment to an attribute of the settings is accepted exactly if the documentation allows the value; then the attribute has this value and
nothing else has changed. -/
theorem C100_assign {P : Type} (c : Config P) (s : Setting P) :
    ((∃ c', c.assign s = .ok c') ↔ Allowed s) ∧ ∀ c', c.assign s = .ok c' → Took c c' s := by
  constructor
  · cases s with
    | alpha x =>
      simp only [Config.assign, map_ok, inRange_ok, Allowed]
      exact ⟨fun ⟨c', v, h, _⟩ => ⟨v, h⟩, fun ⟨v, h⟩ => ⟨_, v, h, rfl⟩⟩
    | linFrac x =>
      simp only [Config.assign, map_ok, inRange_ok, Allowed, half_eq]
      exact ⟨fun ⟨c', v, h, _⟩ => ⟨v, h⟩, fun ⟨v, h⟩ => ⟨_, v, h, rfl⟩⟩
    | xscale s =>
      simp only [Config.assign, map_ok, oneOf_ok, Allowed, List.mem_cons, List.not_mem_nil, or_false]
      exact ⟨fun ⟨c', v, h, _⟩ => h.2, fun h => ⟨_, s, ⟨rfl, h⟩, rfl⟩⟩
    | yscale s =>
      simp only [Config.assign, map_ok, oneOf_ok, Allowed, List.mem_cons, List.not_mem_nil, or_false]
      exact ⟨fun ⟨c', v, h, _⟩ => h.2, fun h => ⟨_, s, ⟨rfl, h⟩, rfl⟩⟩
    | residuals s =>
      simp only [Config.assign, map_ok, oneOf_ok, Allowed, List.mem_cons, List.not_mem_nil, or_false]
      exact ⟨fun ⟨c', v, h, _⟩ => h.2, fun h => ⟨_, s, ⟨rfl, h⟩, rfl⟩⟩
    | cl xs =>
      simp only [Config.assign, map_ok, Allowed]
      rw [← cl_iff]
      exact ⟨fun ⟨c', v, h, _⟩ => ⟨v, h⟩, fun ⟨v, h⟩ => ⟨_, v, h, rfl⟩⟩
    | palette p => simp [Config.assign, Allowed]
    | randomQuantile b => simp [Config.assign, Allowed]
    | markOutlier b => simp [Config.assign, Allowed]
    | ciWithSign b => simp [Config.assign, Allowed]
    | fillCi b => simp [Config.assign, Allowed]
    | plotComps b => simp [Config.assign, Allowed]
    | seed b => simp [Config.assign, Allowed]
  · intro c' h
    cases s with
    | alpha x =>
      simp only [Config.assign, map_ok, inRange_ok] at h
      obtain ⟨v, h1, h2⟩ := h
      exact ⟨v, h1.1, h2.symm⟩
    | linFrac x =>
      simp only [Config.assign, map_ok, inRange_ok] at h
      obtain ⟨v, h1, h2⟩ := h
      exact ⟨v, h1.1, h2.symm⟩
    | xscale s =>
      simp only [Config.assign, map_ok, oneOf_ok] at h
      obtain ⟨v, ⟨rfl, -⟩, h2⟩ := h
      exact h2.symm
    | yscale s =>
      simp only [Config.assign, map_ok, oneOf_ok] at h
      obtain ⟨v, ⟨rfl, -⟩, h2⟩ := h
      exact h2.symm
    | residuals s =>
      simp only [Config.assign, map_ok, oneOf_ok] at h
      obtain ⟨v, ⟨rfl, -⟩, h2⟩ := h
      exact h2.symm
    | cl xs =>
      simp only [Config.assign, map_ok] at h
      obtain ⟨v, h1, h2⟩ := h
      obtain ⟨vs, k1, k2, k3, -⟩ := cl_ok h1
      exact ⟨vs, v, k1, k2, k3, h2.symm⟩
    | palette p => exact (Except.ok.inj h).symm
    | randomQuantile b => exact (Except.ok.inj h).symm
    | markOutlier b => exact (Except.ok.inj h).symm
    | ciWithSign b => exact (Except.ok.inj h).symm
    | fillCi b => exact (Except.ok.inj h).symm
    | plotComps b => exact (Except.ok.inj h).symm
    | seed b => exact (Except.ok.inj h).symm

theorem assign_valid {P : Type} {c c' : Config P} {s : Setting P} (hv : Valid c) (h : c.assign s = .ok c') : Valid c' := by
  obtain ⟨a1, a2, a3, a4, a5, a6⟩ := hv
  have hal := (C100_assign c s).1.1 ⟨c', h⟩
  have ht := (C100_assign c s).2 c' h
  cases s with
  | alpha x =>
    obtain ⟨v, rfl, hv⟩ := hal
    obtain ⟨v', e, rfl⟩ := ht
    cases e
    exact ⟨hv, a2, a3, a4, a5, a6⟩
  | linFrac x =>
    obtain ⟨v, rfl, hv⟩ := hal
    obtain ⟨v', e, rfl⟩ := ht
    cases e
    exact ⟨a1, a2, a3, hv, a5, a6⟩
  | xscale s => obtain rfl : c' = _ := ht; exact ⟨a1, hal, a3, a4, a5, a6⟩
  | yscale s => obtain rfl : c' = _ := ht; exact ⟨a1, a2, hal, a4, a5, a6⟩
  | residuals s => obtain rfl : c' = _ := ht; exact ⟨a1, a2, a3, a4, a5, hal⟩
  | cl xs =>
    obtain ⟨vs, rfl, hv⟩ := hal
    obtain ⟨vs', s, e, hp, hs, rfl⟩ := ht
    have : vs = vs' := by
      have hinj : Function.Injective Num.fin := fun a b h => by cases h; rfl
      exact (List.map_injective_iff.2 hinj) e
    subst this
    exact ⟨a1, a2, a3, a4, ⟨fun x hx => hv x (hp.mem_iff.1 hx), hs⟩, a6⟩
  | palette p => obtain rfl : c' = _ := ht; exact ⟨a1, a2, a3, a4, a5, a6⟩
  | randomQuantile b => obtain rfl : c' = _ := ht; exact ⟨a1, a2, a3, a4, a5, a6⟩
  | markOutlier b => obtain rfl : c' = _ := ht; exact ⟨a1, a2, a3, a4, a5, a6⟩
  | ciWithSign b => obtain rfl : c' = _ := ht; exact ⟨a1, a2, a3, a4, a5, a6⟩
  | fillCi b => obtain rfl : c' = _ := ht; exact ⟨a1, a2, a3, a4, a5, a6⟩
  | plotComps b => obtain rfl : c' = _ := ht; exact ⟨a1, a2, a3, a4, a5, a6⟩
  | seed b => obtain rfl : c' = _ := ht; exact ⟨a1, a2, a3, a4, a5, a6⟩

theorem foldl_valid {P : Type} {c : Config P} (hv : Valid c) (hist : List (Setting P)) : Valid (hist.foldl Config.tryAssign c) := by
  induction hist generalizing c with
  | nil => exact hv
  | cons s hist ih =>
    rw [List.foldl_cons]
    apply ih
    unfold Config.tryAssign
    cases ha : c.assign s with
    | error e => exact hv
    | ok c' => exact assign_valid hv ha

/-- **C100 (settings).**  `PlotConfig(...)` is made exactly if every argument is allowed, with the values given; and after any history of assignments, accepted or refused,
its settings are valid. -/
theorem C100_settings {P : Type} (a : Args P) :
    ((∃ c, Config.make a = .ok c) ↔ Allowed (P := P) (.alpha a.alpha) ∧ Allowed (P := P) (.xscale a.xscale) ∧ Allowed (P := P) (.yscale a.yscale) ∧
      Allowed (P := P) (.linFrac a.linFrac) ∧ Allowed (P := P) (.cl a.cl) ∧ Allowed (P := P) (.residuals a.residuals)) ∧
    ∀ c, Config.make a = .ok c → (a.alpha = .fin c.alpha ∧ c.palette = a.palette ∧ c.xscale = a.xscale ∧ c.yscale = a.yscale ∧ a.linFrac = .fin c.linFrac ∧
        (∃ vs : List ℝ, a.cl = vs.map .fin ∧ c.cl.Perm vs) ∧ c.residuals = a.residuals ∧ c.randomQuantile = a.randomQuantile ∧ c.markOutlier = a.markOutlier ∧
        c.ciWithSign = a.ciWithSign ∧ c.fillCi = a.fillCi ∧ c.plotComps = a.plotComps ∧ c.seed = a.seed) ∧
      ∀ hist : List (Setting P), Valid (hist.foldl Config.tryAssign c) := by
  have hmake : ∀ c, Config.make a = .ok c ↔ ∃ al xs ys lf cl rs, inRange 1 a.alpha = .ok al ∧ oneOf ["linear", "log"] a.xscale = .ok xs ∧
      oneOf ["linear", "log", "linlog"] a.yscale = .ok ys ∧ inRange 0.5 a.linFrac = .ok lf ∧ (levels a.cl).bind setCl = .ok cl ∧ oneOf ["rd", "rp", "rq"] a.residuals = .ok rs ∧
      c = ⟨al, a.palette, xs, ys, lf, cl, rs, a.randomQuantile, a.markOutlier, a.ciWithSign, a.fillCi, a.plotComps, a.seed⟩ := by
    intro c
    simp only [Config.make, bind, pure, Except.pure]
    cases inRange 1 a.alpha with
    | error e => simp [Except.bind]
    | ok al =>
    cases oneOf ["linear", "log"] a.xscale with
    | error e => simp [Except.bind]
    | ok xs =>
    cases oneOf ["linear", "log", "linlog"] a.yscale with
    | error e => simp [Except.bind]
    | ok ys =>
    cases inRange 0.5 a.linFrac with
    | error e => simp [Except.bind]
    | ok lf =>
    cases (levels a.cl).bind setCl with
    | error e => simp [Except.bind]
    | ok cl =>
    cases oneOf ["rd", "rp", "rq"] a.residuals with
    | error e => simp [Except.bind]
    | ok rs =>
    simp only [Except.bind, Except.ok.injEq]
    constructor
    · intro h
      exact ⟨al, xs, ys, lf, cl, rs, rfl, rfl, rfl, rfl, rfl, rfl, h.symm⟩
    · rintro ⟨_, _, _, _, _, _, rfl, rfl, rfl, rfl, rfl, rfl, h⟩
      exact h.symm
  constructor
  · simp only [hmake, Allowed, ← half_eq, ← cl_iff]
    constructor
    · rintro ⟨c, al, xs, ys, lf, cl, rs, h1, h2, h3, h4, h5, h6, -⟩
      refine ⟨⟨al, inRange_ok.1 h1⟩, by simpa using (oneOf_ok.1 h2).2, by simpa using (oneOf_ok.1 h3).2, ⟨lf, inRange_ok.1 h4⟩, ⟨cl, h5⟩, by simpa using (oneOf_ok.1 h6).2⟩
    · rintro ⟨⟨al, h1⟩, h2, h3, ⟨lf, h4⟩, ⟨cl, h5⟩, h6⟩
      exact ⟨_, al, a.xscale, a.yscale, lf, cl, a.residuals, inRange_ok.2 h1, oneOf_ok.2 ⟨rfl, by simpa using h2⟩, oneOf_ok.2 ⟨rfl, by simpa using h3⟩,
        inRange_ok.2 h4, h5, oneOf_ok.2 ⟨rfl, by simpa using h6⟩, rfl⟩
  · intro c hc
    obtain ⟨al, xs, ys, lf, cl, rs, h1, h2, h3, h4, h5, h6, rfl⟩ := (hmake c).1 hc
    have g1 := inRange_ok.1 h1
    have g2 := oneOf_ok.1 h2
    have g3 := oneOf_ok.1 h3
    have g4 := inRange_ok.1 h4
    obtain ⟨vs, g5, g5p, g5s, g5v⟩ := cl_ok h5
    have g6 := oneOf_ok.1 h6
    refine ⟨⟨g1.1, rfl, g2.1, g3.1, g4.1, ⟨vs, g5, g5p⟩, g6.1, rfl, rfl, rfl, rfl, rfl, rfl⟩, ?_⟩
    have hv : Valid (⟨al, a.palette, xs, ys, lf, cl, rs, a.randomQuantile, a.markOutlier, a.ciWithSign, a.fillCi, a.plotComps, a.seed⟩ : Config P) := by
      refine ⟨g1.2, ?_, ?_, by rw [← half_eq]; exact g4.2, ⟨fun x hx => g5v x (g5p.mem_iff.1 hx), g5s⟩, ?_⟩
      · have := g2.2; rw [← g2.1] at this; simpa using this
      · have := g3.2; rw [← g3.1] at this; simpa using this
      · have := g6.2; rw [← g6.1] at this; simpa using this
    exact foldl_valid hv

example : ∃ c, Config.make (⟨.fin 0.8, (), "log", "linlog", .fin 0.15, [.fin 0.9, .fin 0.68], "rq", true, true, false, false, false, some 42⟩ : Args Unit) = .ok c := by
  refine (C100_settings _).1.2 ⟨⟨_, rfl, ?_, ?_⟩, Or.inr rfl, Or.inr (Or.inr rfl), ⟨_, rfl, ?_, ?_⟩, ⟨[0.9, 0.68], rfl, ?_⟩, Or.inr (Or.inr rfl)⟩
  · norm_num
  · norm_num
  · norm_num
  · norm_num
  · intro v hv
    simp only [List.mem_cons, List.not_mem_nil, or_false] at hv
    obtain rfl | rfl := hv <;> norm_num

/-! ## Colours -/

/-- The colours `d` were chosen for all data sets, and neither reset nor replaced since. -/
def InForce {Q Col : Type} (names : List String) (hist : List (Act Q Col)) (d : List (String × Col)) : Prop :=
  ∃ before after, hist = before ++ .set d :: after ∧ (∀ n ∈ names, ∃ c, d.lookup n = some c) ∧
    ∀ a ∈ after, a ≠ .reset ∧ ∀ d', a = .set d' → ∃ n ∈ names, d'.lookup n = none

/-- The palette of the settings after a history. -/
def PaletteIs {Q Col : Type} (p₀ : Pal Q) (hist : List (Act Q Col)) (p : Pal Q) : Prop :=
  (p = p₀ ∧ ∀ q, .config q ∉ hist) ∨ ∃ before after, hist = before ++ .config p :: after ∧ ∀ q, .config q ∉ after

theorem inForce_snoc {Q Col : Type} {names : List String} {hist : List (Act Q Col)} {a : Act Q Col} {d : List (String × Col)} :
    InForce names (hist ++ [a]) d ↔ (a = .set d ∧ ∀ n ∈ names, ∃ c, d.lookup n = some c) ∨
      (InForce names hist d ∧ a ≠ .reset ∧ ∀ d', a = .set d' → ∃ n ∈ names, d'.lookup n = none) := by
  constructor
  · rintro ⟨b, l, h1, h2, h3⟩
    rcases List.eq_nil_or_concat l with rfl | ⟨l', x, rfl⟩
    · obtain ⟨-, h⟩ := List.append_inj' h1 rfl
      cases h
      exact Or.inl ⟨rfl, h2⟩
    · rw [List.concat_eq_append] at h1 h3
      have h1 : hist ++ [a] = (b ++ .set d :: l') ++ [x] := by rw [h1]; simp
      obtain ⟨h, h'⟩ := List.append_inj' h1 rfl
      cases h'
      exact Or.inr ⟨⟨b, l', h, h2, fun y hy => h3 y (by simp [hy])⟩, h3 a (by simp)⟩
  · rintro (⟨rfl, h⟩ | ⟨⟨b, l, rfl, h2, h3⟩, h⟩)
    · exact ⟨hist, [], rfl, h, fun x hx => absurd hx (by simp)⟩
    · refine ⟨b, l ++ [a], by simp, h2, ?_⟩
      intro x hx
      rcases List.mem_append.1 hx with hx | hx
      · exact h3 x hx
      · rw [List.mem_singleton.1 hx]; exact h

theorem paletteIs_snoc {Q Col : Type} {p₀ : Pal Q} {hist : List (Act Q Col)} {a : Act Q Col} {p : Pal Q} (h : PaletteIs p₀ (hist ++ [a]) p) :
    a = .config p ∨ ((∀ q, a ≠ .config q) ∧ PaletteIs p₀ hist p) := by
  rcases h with ⟨rfl, h⟩ | ⟨b, l, h1, h2⟩
  · refine Or.inr ⟨fun q hq => h q (by rw [hq]; simp), Or.inl ⟨rfl, fun q hq => h q (List.mem_append_left _ hq)⟩⟩
  · rcases List.eq_nil_or_concat l with rfl | ⟨l', x, rfl⟩
    · obtain ⟨-, h⟩ := List.append_inj' h1 rfl
      cases h
      exact Or.inl rfl
    · rw [List.concat_eq_append] at h1 h2
      have h1 : hist ++ [a] = (b ++ .config p :: l') ++ [x] := by rw [h1]; simp
      obtain ⟨h, h'⟩ := List.append_inj' h1 rfl
      cases h'
      exact Or.inr ⟨fun q hq => h2 q (by rw [hq]; simp), Or.inr ⟨b, l', h, fun q hq => h2 q (List.mem_append_left _ hq)⟩⟩

/-- The state after a history. -/
def after {Q Col : Type} [DecidableEq Q] (sns : Seaborn Q Col) (names : List String) (s : Plotter Q Col) (hist : List (Act Q Col)) : Plotter Q Col :=
  hist.foldl (fun s a => (s.step sns names a).1) s

theorem run_getElem {Q Col : Type} [DecidableEq Q] (sns : Seaborn Q Col) (names : List String) (s : Plotter Q Col) (hist : List (Act Q Col)) (i : Nat) :
    (s.run sns names hist)[i]? = (hist[i]?).map fun a => ((after sns names s (hist.take i)).step sns names a).2 := by
  induction hist generalizing s i with
  | nil => simp [Plotter.run]
  | cons a l ih =>
    cases i with
    | zero => simp [Plotter.run, after]
    | succ i => simp only [Plotter.run, List.getElem?_cons_succ, ih, List.take_succ_cons, after, List.foldl_cons]

theorem covers_iff {Col : Type} {names : List String} {d : List (String × Col)} :
    (names.all (fun n => (d.lookup n).isSome)) = true ↔ ∀ n ∈ names, ∃ c, d.lookup n = some c := by
  simp [List.all_eq_true, Option.isSome_iff_exists]

theorem covers_not {Col : Type} {names : List String} {d : List (String × Col)} (h : ¬ (names.all (fun n => (d.lookup n).isSome)) = true) :
    ∃ n ∈ names, d.lookup n = none := by
  rw [covers_iff] at h
  push Not at h
  obtain ⟨n, hn, h⟩ := h
  exact ⟨n, hn, by cases hl : d.lookup n with | none => rfl | some c => exact absurd hl (h c)⟩

/-- What the state knows of the history. -/
structure Knows {Q Col : Type} (sns : Seaborn Q Col) (names : List String) (p₀ : Pal Q) (hist : List (Act Q Col)) (s : Plotter Q Col) : Prop where
  config : ∀ p, PaletteIs p₀ hist p → s.config = p
  custom : ∀ d, InForce names hist d → s.palette = .customized ∧ s.colors = some d
  auto : (∀ d, ¬ InForce names hist d) → s.palette = .none ∨ (s.palette ≠ .customized ∧ s.colors = some (names.zip (getColors sns names.length s.palette)))
  real : s.config ≠ .customized ∧ s.config ≠ .none

theorem after_knows {Q Col : Type} [DecidableEq Q] (sns : Seaborn Q Col) (names : List String) (p₀ : Pal Q) (h₀ : p₀ ≠ .none ∧ p₀ ≠ .customized)
    (hist : List (Act Q Col)) (hreal : ∀ p, .config p ∈ hist → p ≠ .none ∧ p ≠ .customized) : Knows sns names p₀ hist (after sns names (Plotter.new p₀) hist) := by
  induction hist using List.reverseRecOn with
  | nil =>
    refine ⟨?_, ?_, fun _ => Or.inl rfl, ⟨h₀.2, h₀.1⟩⟩
    · rintro p (⟨rfl, -⟩ | ⟨b, l, h, -⟩)
      · rfl
      · simp at h
    · rintro d ⟨b, l, h, -⟩
      simp at h
  | append_singleton hist a ih =>
    obtain ⟨k1, k2, k3, k4⟩ := ih fun p hp => hreal p (by simp [hp])
    have hstep : after sns names (Plotter.new p₀) (hist ++ [a]) = ((after sns names (Plotter.new p₀) hist).step sns names a).1 := by
      simp only [after, List.foldl_append, List.foldl_cons, List.foldl_nil]
    rw [hstep]
    obtain ⟨s, hs⟩ : ∃ s, s = after sns names (Plotter.new p₀) hist := ⟨_, rfl⟩
    rw [← hs] at k1 k2 k3 k4 ⊢
    cases a with
    | config q =>
      refine ⟨?_, ?_, ?_, ?_⟩
      · intro p hp
        rcases paletteIs_snoc hp with h | ⟨h, -⟩
        · cases h; rfl
        · exact absurd rfl (h q)
      · intro d hd
        rcases inForce_snoc.1 hd with ⟨h, -⟩ | ⟨h, -⟩
        · cases h
        · exact k2 d h
      · intro hd
        exact k3 fun d h => hd d (inForce_snoc.2 (Or.inr ⟨h, by simp, by simp⟩))
      · have := hreal q (by simp)
        exact ⟨this.2, this.1⟩
    | reset =>
      refine ⟨?_, ?_, fun _ => Or.inl rfl, k4⟩
      · intro p hp
        rcases paletteIs_snoc hp with h | ⟨-, h⟩
        · cases h
        · exact k1 p h
      · intro d hd
        rcases inForce_snoc.1 hd with ⟨h, -⟩ | ⟨-, h, -⟩
        · cases h
        · exact absurd rfl h
    | set d =>
      simp only [Plotter.step, Plotter.setColors]
      by_cases hc : (names.all (fun n => (d.lookup n).isSome)) = true
      · rw [if_pos hc]
        refine ⟨?_, ?_, ?_, k4⟩
        · intro p hp
          rcases paletteIs_snoc hp with h | ⟨-, h⟩
          · cases h
          · exact k1 p h
        · intro d' hd
          rcases inForce_snoc.1 hd with ⟨h, -⟩ | ⟨-, -, h⟩
          · cases h; exact ⟨rfl, rfl⟩
          · obtain ⟨n, hn, hl⟩ := h d rfl
            obtain ⟨c, hc⟩ := covers_iff.1 hc n hn
            rw [hl] at hc
            cases hc
        · intro h
          exact absurd (inForce_snoc.2 (Or.inl ⟨rfl, covers_iff.1 hc⟩)) (h d)
      · rw [if_neg hc]
        have hm := covers_not hc
        refine ⟨?_, ?_, ?_, k4⟩
        · intro p hp
          rcases paletteIs_snoc hp with h | ⟨-, h⟩
          · cases h
          · exact k1 p h
        · intro d' hd
          rcases inForce_snoc.1 hd with ⟨h, h'⟩ | ⟨h, -⟩
          · cases h; exact absurd (covers_iff.2 h') hc
          · exact k2 d' h
        · intro h
          exact k3 fun d' hd' => h d' (inForce_snoc.2 (Or.inr ⟨hd', by simp, fun d'' e => by cases e; exact hm⟩))
    | read =>
      have hin : ∀ d, InForce names (hist ++ [.read]) d ↔ InForce names hist d := by
        intro d
        rw [inForce_snoc]
        constructor
        · rintro (⟨h, -⟩ | ⟨h, -⟩)
          · cases h
          · exact h
        · intro h
          exact Or.inr ⟨h, by simp, by simp⟩
      have hpa : ∀ p, PaletteIs p₀ (hist ++ [.read]) p → s.config = p := by
        intro p hp
        rcases paletteIs_snoc hp with h | ⟨-, h⟩
        · cases h
        · exact k1 p h
      simp only [Plotter.step, Plotter.read]
      by_cases hc : s.palette ≠ .customized ∧ s.palette ≠ s.config
      · rw [if_pos hc]
        refine ⟨hpa, ?_, fun _ => Or.inr ⟨k4.1, rfl⟩, k4⟩
        intro d hd
        exact absurd (k2 d ((hin d).1 hd)).1 hc.1
      · rw [if_neg hc]
        exact ⟨hpa, fun d hd => k2 d ((hin d).1 hd), fun h => k3 fun d hd => h d ((hin d).2 hd), k4⟩

/-- **C100 (colours), partial.**  After any history of choosing colours, resetting them, changing the palette or the settings and reading the colours, reading gives the colours that
were last chosen for all data sets, if they have not been reset since (a refused choice changes nothing), and otherwise one colour per data set from the palette in the settings.
Missing: palettes `None` and `'customized'`, see `C100_colors_refuted`. -/
theorem C100_colors_partial {Q Col : Type} [DecidableEq Q] (sns : Seaborn Q Col) (hsns : ∀ p n, (sns.sized p n).length = n) (names : List String)
    (p₀ : Pal Q) (h₀ : p₀ ≠ .none ∧ p₀ ≠ .customized) (hist : List (Act Q Col)) (hreal : ∀ p, .config p ∈ hist → p ≠ .none ∧ p ≠ .customized)
    (i : Nat) (hi : hist[i]? = some .read) :
    ∃ colors, ((Plotter.new p₀).run sns names hist)[i]? = some (some (some colors)) ∧
      (∀ d, InForce names (hist.take i) d → colors = d) ∧
      ((∀ d, ¬ InForce names (hist.take i) d) → colors.map (·.1) = names ∧
        ∀ p, PaletteIs p₀ (hist.take i) p → colors = names.zip (if names.length ≤ (sns.plain p).length then (sns.plain p).take names.length else sns.sized p names.length)) ∧
      ∀ n ∈ names, ∃ c, colors.lookup n = some c := by
  obtain ⟨k1, k2, k3, k4⟩ := after_knows sns names p₀ h₀ (hist.take i) fun p hp => hreal p (List.mem_of_mem_take hp)
  have hrun := run_getElem sns names (Plotter.new p₀) hist i
  rw [hi] at hrun
  obtain ⟨s, hs⟩ : ∃ s, s = after sns names (Plotter.new p₀) (hist.take i) := ⟨_, rfl⟩
  rw [← hs] at k1 k2 k3 k4 hrun
  simp only [Option.map_some, Plotter.step] at hrun
  rw [hrun]
  by_cases hex : ∃ d, InForce names (hist.take i) d
  · obtain ⟨d, hd⟩ := hex
    obtain ⟨e1, e2⟩ := k2 d hd
    have hr : s.read sns names = s := by
      unfold Plotter.read
      rw [if_neg fun h => h.1 e1]
    rw [hr, e2]
    refine ⟨d, rfl, ?_, fun h => absurd hd (h d), ?_⟩
    · intro d' hd'
      have := (k2 d' hd').2
      rw [e2] at this
      exact Option.some.inj this
    · obtain ⟨b, l, -, h, -⟩ := hd
      exact h
  · have hno : ∀ d, ¬ InForce names (hist.take i) d := fun d hd => hex ⟨d, hd⟩
    have hr : (s.read sns names).colors = some (names.zip (getColors sns names.length s.config)) := by
      unfold Plotter.read
      rcases k3 hno with h | ⟨h1, h2⟩
      · rw [if_pos ⟨by rw [h]; simp, by rw [h]; exact fun e => k4.2 e.symm⟩]
      · by_cases hp : s.palette = s.config
        · rw [if_neg fun h => h.2 hp, h2, hp]
        · rw [if_pos ⟨h1, hp⟩]
    have hlen : (getColors sns names.length s.config).length = names.length := by
      unfold getColors
      split
      · rw [List.length_take]; omega
      · exact hsns _ _
    have hkeys : (names.zip (getColors sns names.length s.config)).map (·.1) = names := by
      rw [List.map_fst_zip]; omega
    rw [hr]
    refine ⟨_, rfl, fun d hd => absurd hd (hno d), fun _ => ⟨hkeys, ?_⟩, ?_⟩
    · intro p hp
      rw [k1 p hp]
      rfl
    · intro n hn
      have : n ∈ (names.zip (getColors sns names.length s.config)).map (·.1) := by rw [hkeys]; exact hn
      obtain ⟨kv, hkv, rfl⟩ := List.mem_map.1 this
      cases hl : (names.zip (getColors sns names.length s.config)).lookup kv.1 with
      | some c => exact ⟨c, rfl⟩
      | none =>
        have := List.lookup_eq_none_iff.1 hl kv hkv
        simp at this

/-- A seaborn with colours that are numbers. -/
def exSns : Seaborn Unit Nat := ⟨fun _ => [10, 11], fun _ n => List.replicate n 7⟩

example : (Plotter.new (.other ())).run exSns ["a", "b"] [.read, .set [("a", 1)], .read, .set [("b", 2), ("a", 1)], .read, .reset, .read] =
    [some (some [("a", 10), ("b", 11)]), none, some (some [("a", 10), ("b", 11)]), none, some (some [("b", 2), ("a", 1)]), none, some (some [("a", 10), ("b", 11)])] := by
  decide

example : ∃ colors, ((Plotter.new (.other ())).run exSns ["a", "b"] [.set [("b", 2), ("a", 1)], .read])[1]? = some (some (some colors)) ∧ colors = [("b", 2), ("a", 1)] := by
  obtain ⟨c, h1, h2, -⟩ := C100_colors_partial exSns (fun _ n => by simp [exSns]) ["a", "b"] (.other ()) (by decide) [.set [("b", 2), ("a", 1)], .read] (by simp) 1 rfl
  exact ⟨c, h1, h2 _ ⟨[], [], rfl, by simp [List.lookup], by simp⟩⟩

/-- **C100 (colours) fails** for the palette `None`, which the settings accept: a new plotter then has no colours. -/
theorem C100_colors_refuted {Q Col : Type} [DecidableEq Q] (sns : Seaborn Q Col) (names : List String) :
    ((Plotter.new (Q := Q) (Col := Col) .none).run sns names [.read])[0]? = some (some none) := by
  simp [Plotter.run, Plotter.step, Plotter.read, Plotter.new]

/-- **C100 (refusals).**  A value that is not allowed is refused with a `ValueError`, and the settings stay as they were. -/
theorem C100_refused {P : Type} (c : Config P) (s : Setting P) (h : ¬ Allowed s) : c.assign s = .error .valueError ∧ c.tryAssign s = c := by
  have hr : ∀ hi x, inRange hi x = .error .valueError ∨ ∃ v, inRange hi x = .ok v := by
    intro hi x
    cases x with
    | fin x =>
      by_cases hx : 0 < x ∧ x ≤ hi
      · exact Or.inr ⟨x, if_pos hx⟩
      · exact Or.inl (if_neg hx)
    | _ => exact Or.inl rfl
  have ho : ∀ l x, oneOf l x = .error .valueError ∨ ∃ v, oneOf l x = .ok v := by
    intro l x
    by_cases hx : x ∈ l
    · exact Or.inr ⟨x, if_pos hx⟩
    · exact Or.inl (if_neg hx)
  have hl : ∀ xs, levels xs = .error .valueError ∨ ∃ v, levels xs = .ok v := by
    intro xs
    induction xs with
    | nil => exact Or.inr ⟨[], rfl⟩
    | cons x xs ih =>
      cases x with
      | fin x =>
        rcases ih with e | ⟨v, e⟩
        · exact Or.inl (by simp only [levels, e]; rfl)
        · exact Or.inr ⟨x :: v, by simp only [levels, e]; rfl⟩
      | _ => exact Or.inl rfl
  have hs : ∀ xs, setCl xs = .error .valueError ∨ ∃ v, setCl xs = .ok v := by
    intro xs
    by_cases hx : (xs.insertionSort (· ≤ ·)).all (fun c => decide (0 < c ∧ c < 1)) = true
    · exact Or.inr ⟨_, if_pos hx⟩
    · exact Or.inl (if_neg hx)
  have key : c.assign s = .error .valueError ∨ ∃ c', c.assign s = .ok c' := by
    cases s with
    | alpha x => rcases hr 1 x with e | ⟨v, e⟩ <;> simp [Config.assign, e, Except.map]
    | linFrac x => rcases hr 0.5 x with e | ⟨v, e⟩ <;> simp [Config.assign, e, Except.map]
    | xscale x => rcases ho ["linear", "log"] x with e | ⟨v, e⟩ <;> simp [Config.assign, e, Except.map]
    | yscale x => rcases ho ["linear", "log", "linlog"] x with e | ⟨v, e⟩ <;> simp [Config.assign, e, Except.map]
    | residuals x => rcases ho ["rd", "rp", "rq"] x with e | ⟨v, e⟩ <;> simp [Config.assign, e, Except.map]
    | cl xs =>
      rcases hl xs with e | ⟨v, e⟩
      · simp [Config.assign, e, Except.map, Except.bind]
      · rcases hs v with e' | ⟨w, e'⟩ <;> simp [Config.assign, e, e', Except.map, Except.bind]
    | _ => simp [Config.assign]
  have he : c.assign s = .error .valueError := by
    rcases key with e | e
    · exact e
    · exact absurd ((C100_assign c s).1.1 e) h
  exact ⟨he, by simp only [Config.tryAssign, he]⟩

example (c : Config String) : c.tryAssign (.cl [.fin 0.5, .bad]) = c :=
  (C100_refused c _ (by
    intro h
    obtain ⟨c', hc⟩ := (C100_assign c (.cl [.fin 0.5, .bad])).1.2 h
    simp [Config.assign, levels, Except.map, Except.bind] at hc)).2

/-! ## Markers and numbers of data -/

/-- **C100 (markers), partial.**  There is one marker per data set, and up to eight data sets have different markers.  Missing: more data sets, see `C100_markers_refuted`. -/
theorem C100_markers_partial (n : Nat) : (getMarkers n).length = n ∧ (n ≤ 8 → (getMarkers n).Nodup) ∧ ∀ m ∈ getMarkers n, m ∈ ['s', 'o', 'D', '^', 'd', 'p', 'h', 'H'] := by
  refine ⟨by simp [getMarkers], ?_, ?_⟩
  · intro h
    have h8 : (getMarkers 8).Nodup := by decide
    have : (getMarkers n) = (getMarkers 8).take n := by
      unfold getMarkers
      rw [← List.map_take, List.take_range, Nat.min_eq_left h]
    rw [this]
    exact h8.sublist (List.take_sublist _ _)
  · intro m hm
    obtain ⟨i, -, rfl⟩ := List.mem_map.1 hm
    have hi : i % 9 < 9 := Nat.mod_lt _ (by omega)
    generalize i % 9 = j at hi
    have : ∀ j < 9, markerCycle.getD j 's' ∈ ['s', 'o', 'D', '^', 'd', 'p', 'h', 'H'] := by decide
    exact this j hi

example : getMarkers 3 = ['s', 'o', 'D'] := by decide

/-- **C100 (markers) fails** for nine data sets, although the list has nine entries: the third and the ninth have the same marker. -/
theorem C100_markers_refuted : ¬ (getMarkers 9).Nodup := by decide

theorem lookup_append_none {B : Type} {l l' : List (String × B)} {k : String} (h : l.lookup k = none) : (l ++ l').lookup k = l'.lookup k := by
  rw [List.lookup_append, h]; rfl

/-- **C100 (number of data), partial.**  If no data set is called "total", the numbers of data are those of the data sets, and `total` is their sum.  Missing: a data set of this
name, see `C100_ndata_refuted`. -/
theorem C100_ndata_partial (sizes : List (String × Nat)) (h : ∀ kv ∈ sizes, kv.1 ≠ "total") :
    (∀ k, k ≠ "total" → (ndata sizes).lookup k = sizes.lookup k) ∧ (ndata sizes).lookup "total" = some (sizes.map (·.2)).sum := by
  have hany : sizes.any (fun kv => kv.1 == "total") = false := by
    rw [List.any_eq_false]
    intro kv hkv
    simpa using h kv hkv
  have hn : sizes.lookup "total" = none := by
    rw [List.lookup_eq_none_iff]
    intro kv hkv
    have := h kv hkv
    simpa using fun e => this e.symm
  unfold ndata
  rw [hany]
  simp only [Bool.false_eq_true, if_false]
  refine ⟨?_, ?_⟩
  · intro k hk
    rw [List.lookup_append]
    have : (k == "total") = false := by simpa using hk
    simp [List.lookup, this]
  · rw [lookup_append_none hn]
    simp [List.lookup]

example : (ndata [("a", 3), ("b", 4)]).lookup "total" = some 7 := by decide

/-- **C100 (number of data) fails** for a data set called "total": its own number of data is replaced. -/
theorem C100_ndata_refuted : (ndata [("total", 3), ("b", 4)]).lookup "total" ≠ some 3 := by decide

end Elisa.Plot.Settings
