import Verif.Models.Param

/-!
# C26, C27: histories of attribute assignments on bounded parameters
-/

namespace Elisa.Models

open Val

/-! ## Specification -/

/-- `min < default < max`, all three being ordinary numbers. -/
def StrictlyInside (p : UParam) : Prop :=
  ∃ lo d hi : ℚ, p.min = .fin lo ∧ p.default = .fin d ∧ p.max = .fin hi ∧ lo < d ∧ d < hi

/-- `min ≤ default ≤ max` and `min < max`, all three being ordinary numbers. -/
def WithinBounds (p : UParam) : Prop :=
  ∃ lo d hi : ℚ, p.min = .fin lo ∧ p.default = .fin d ∧ p.max = .fin hi ∧ lo ≤ d ∧ d ≤ hi ∧ lo < hi

/-- The lower bound is a positive number. -/
def PositiveMin (p : UParam) : Prop := ∃ lo : ℚ, p.min = .fin lo ∧ 0 < lo

/-- The prior distribution is the one displayed: right scale, right bounds. -/
def PriorMirrors (p : UParam) : Prop := p.prior = ⟨p.log, p.min, p.max⟩

/-- What the English property C26 demands of a state. -/
def Good (p : UParam) : Prop :=
  (p.fixed = false → StrictlyInside p) ∧ (p.log = true → PositiveMin p)

/-- All numbers mentioned by the command are finite. -/
def FiniteCmd : Cmd → Prop
  | .setDefault v => IsFin v
  | .setMin v => IsFin v
  | .setMax v => IsFin v
  | _ => True

/-- The rounding leaves room for the reset of a default lying on a bound: the reset value stays
strictly inside. True of exact arithmetic; for doubles true unless the interval is narrow
compared with its position. -/
def NudgeFits (rnd : ℚ → ℚ) : Prop :=
  ∀ lo hi : ℚ, lo < hi →
    (lo < rnd (lo + rnd (eps * rnd (hi + -lo))) ∧ rnd (lo + rnd (eps * rnd (hi + -lo))) < hi) ∧
    (lo < rnd (hi + -rnd (eps * rnd (hi + -lo))) ∧ rnd (hi + -rnd (eps * rnd (hi + -lo))) < hi)

theorem nudgeFits_exact : NudgeFits id := by
  intro lo hi h
  simp only [id, eps]
  refine ⟨⟨?_, ?_⟩, ⟨?_, ?_⟩⟩ <;> linarith

/-- Assignments that do not put a bound on top of a free default and do not switch to a logarithmic
scale while the lower bound is not positive. -/
def SafeCmd (p : UParam) : Cmd → Prop
  | .setDefault v => IsFin v
  | .setMin v => IsFin v ∧ (p.fixed = false → v ≠ p.default)
  | .setMax v => IsFin v ∧ (p.fixed = false → v ≠ p.default)
  | .setLog b => b = true → PositiveMin p
  | .setFixed _ => True

/-- Every command of the history is safe in the state in which it is issued. -/
def SafeRun (rnd : ℚ → ℚ) (p : UParam) : List Cmd → Prop
  | [] => True
  | c :: cs => SafeCmd p c ∧ SafeRun rnd (p.step rnd c).1 cs

/-! ## Lemmas -/

@[simp] theorem lt_fin (a b : ℚ) : Val.lt (.fin a) (.fin b) = decide (a < b) := rfl
@[simp] theorem eq_fin (a b : ℚ) : Val.eq (.fin a) (.fin b) = decide (a = b) := rfl
@[simp] theorem le_fin (a b : ℚ) : Val.le (.fin a) (.fin b) = decide (a ≤ b) := by
  simp only [Val.le, lt_fin, eq_fin]
  by_cases h : a ≤ b
  · rcases lt_or_eq_of_le h with h' | h' <;> simp [h, h']
  · have h1 : ¬ a < b := fun h' => h h'.le
    have h2 : ¬ a = b := fun h' => h h'.le
    simp [h, h1, h2]

theorem rangeError_fin (log : Bool) (d lo hi : ℚ) :
    rangeError log (.fin d) (.fin lo) (.fin hi) = none ↔
      (log = true → 0 < lo) ∧ lo < hi ∧ lo ≤ d ∧ d ≤ hi := by
  simp only [rangeError, le_fin, lt_fin]
  by_cases h1 : lo ≤ 0 <;> by_cases h2 : hi ≤ lo <;> by_cases h3 : d < lo <;>
    by_cases h4 : hi < d <;> cases log <;>
    simp [h1, h2, h3, h4, not_lt.mpr, not_le.mp] <;> first | (intros; linarith) | exact ⟨not_lt.mp h3, not_lt.mp h4⟩ | skip

theorem nudge_fin {rnd : ℚ → ℚ} (hr : NudgeFits rnd) (fixed : Bool) {d lo hi : ℚ}
    (h1 : lo < hi) (h2 : lo ≤ d) (h3 : d ≤ hi) :
    ∃ d' : ℚ, nudge rnd fixed (.fin d) (.fin lo) (.fin hi) = .fin d' ∧ lo ≤ d' ∧ d' ≤ hi ∧
      (fixed = false → lo < d' ∧ d' < hi) ∧ (fixed = true → d' = d) := by
  obtain ⟨⟨a1, a2⟩, ⟨b1, b2⟩⟩ := hr lo hi h1
  cases fixed with
  | true => exact ⟨d, by simp [nudge, nudgeLo, nudgeHi], h2, h3, by simp, by simp⟩
  | false =>
    by_cases e1 : d = lo
    · refine ⟨rnd (lo + rnd (eps * rnd (hi + -lo))), ?_, a1.le, a2.le, fun _ => ⟨a1, a2⟩, by simp⟩
      have : ¬ rnd (lo + rnd (eps * rnd (hi + -lo))) = hi := a2.ne
      simp [nudge, nudgeLo, nudgeHi, e1, Val.sub, Val.add, Val.neg, Val.smulPos, this]
    · by_cases e2 : d = hi
      · refine ⟨rnd (hi + -rnd (eps * rnd (hi + -lo))), ?_, b1.le, b2.le, fun _ => ⟨b1, b2⟩, by simp⟩
        simp [nudge, nudgeLo, nudgeHi, e2, h1.ne', Val.sub, Val.add, Val.neg, Val.smulPos]
      · refine ⟨d, by simp [nudge, nudgeLo, nudgeHi, e1, e2], h2, h3,
          fun _ => ⟨lt_of_le_of_ne h2 (Ne.symm e1), lt_of_le_of_ne h3 e2⟩, by simp⟩

theorem checkAndSet_rejected {rnd : ℚ → ℚ} {p q : UParam} {d? lo? hi? : Option Val} {e : PErr}
    (h : p.checkAndSet rnd d? lo? hi? = (q, some e)) : q = p := by
  unfold UParam.checkAndSet at h
  simp only at h
  split at h <;> simp at h
  exact h.1.symm

theorem checkAndSet_prior {rnd : ℚ → ℚ} {p : UParam} (d? lo? hi? : Option Val)
    (hp : p.prior = ⟨p.log, p.min, p.max⟩) :
    PriorMirrors (p.checkAndSet rnd d? lo? hi?).1 := by
  unfold UParam.checkAndSet PriorMirrors
  simp only
  split
  · exact hp
  · cases d? <;> cases lo? <;> cases hi? <;> simp [hp]

/-- Setting the default on a parameter within its bounds. -/
theorem setDefault_ok {rnd : ℚ → ℚ} (hr : NudgeFits rnd) {p q : UParam} {v : Val} (hv : IsFin v)
    (hb : ∃ lo hi : ℚ, p.min = .fin lo ∧ p.max = .fin hi)
    (h : p.step rnd (.setDefault v) = (q, none)) :
    WithinBounds q ∧ Good q ∧ q.min = p.min ∧ q.max = p.max ∧ q.log = p.log ∧ q.fixed = p.fixed := by
  obtain ⟨lo, hi, e1, e2⟩ := hb
  obtain ⟨d, rfl⟩ := hv
  unfold UParam.step UParam.checkAndSet at h
  simp only [Option.getD_some, Option.getD_none, e1, e2] at h
  split at h
  · simp at h
  · rename_i he
    rw [rangeError_fin] at he
    obtain ⟨c1, c2, c3, c4⟩ := he
    obtain ⟨d', hd', k1, k2, k3, _⟩ := nudge_fin hr p.fixed c2 c3 c4
    simp at h
    subst h
    simp only [hd']
    refine ⟨⟨lo, d', hi, rfl, rfl, rfl, k1, k2, c2⟩, ⟨fun hf => ?_, fun hl => ⟨lo, rfl, c1 hl⟩⟩,
      by simp [e1, e2]⟩
    exact ⟨lo, d', hi, rfl, rfl, rfl, (k3 hf).1, (k3 hf).2⟩

/-- Re-checking through the `fixed` setter. -/
theorem setFixed_ok {rnd : ℚ → ℚ} (hr : NudgeFits rnd) {p : UParam} (b : Bool)
    (hb : WithinBounds p) :
    (p.log = true ∧ ¬ PositiveMin p ∧ (p.step rnd (.setFixed b)).2 = some .logMin) ∨
    ((p.log = true → PositiveMin p) ∧ (p.step rnd (.setFixed b)).2 = none ∧
      WithinBounds (p.step rnd (.setFixed b)).1 ∧ Good (p.step rnd (.setFixed b)).1 ∧
      (p.step rnd (.setFixed b)).1.fixed = b) := by
  obtain ⟨lo, d, hi, e1, e2, e3, h1, h2, h3⟩ := hb
  by_cases hl : p.log = true ∧ lo ≤ 0
  · left
    refine ⟨hl.1, ?_, ?_⟩
    · rintro ⟨l, e, hpos⟩
      rw [e1] at e; cases e; linarith [hl.2]
    · simp [UParam.step, UParam.checkAndSet, rangeError, e1, e2, e3, hl]
  · right
    have hpos : p.log = true → 0 < lo := fun h => not_le.mp fun h' => hl ⟨h, h'⟩
    have hre : rangeError p.log (.fin d) (.fin lo) (.fin hi) = none :=
      (rangeError_fin ..).2 ⟨hpos, h3, h1, h2⟩
    obtain ⟨d', hd', k1, k2, k3, _⟩ := nudge_fin hr b h3 h1 h2
    refine ⟨fun h => ⟨lo, e1, hpos h⟩, ?_, ?_, ⟨?_, ?_⟩, ?_⟩
    all_goals simp only [UParam.step, UParam.checkAndSet, Option.getD_some, e1, e2, e3, hre, hd',
      Option.isSome_some, if_true, Bool.or_self, WithinBounds, StrictlyInside, PositiveMin]
    · exact ⟨lo, d', hi, rfl, rfl, rfl, k1, k2, h3⟩
    · intro hf; exact ⟨lo, d', hi, rfl, rfl, rfl, (k3 hf).1, (k3 hf).2⟩
    · intro hl; exact ⟨lo, rfl, hpos hl⟩

theorem create_ok {rnd : ℚ → ℚ} (hr : NudgeFits rnd) {d lo hi : Val} {log fixed : Bool} {p : UParam}
    (hd : IsFin d) (hlo : IsFin lo) (hhi : IsFin hi)
    (h : UParam.create rnd d lo hi log fixed = .ok p) :
    WithinBounds p ∧ Good p ∧ p.fixed = fixed ∧ p.log = log ∧ p.min = lo ∧ p.max = hi := by
  obtain ⟨l, rfl⟩ := hlo
  obtain ⟨u, rfl⟩ := hhi
  unfold UParam.create at h
  simp only at h
  split at h
  · cases h
  · split at h
    · cases h
    · split at h
      · rename_i hc
        cases h
        have := setDefault_ok (rnd := rnd) hr (p := ⟨d, .fin l, .fin u, log, fixed, ⟨log, .fin l, .fin u⟩⟩)
          hd ⟨l, u, rfl, rfl⟩ hc
        exact ⟨this.1, this.2.1, this.2.2.2.2.2, this.2.2.2.2.1, this.2.2.1, this.2.2.2.1⟩
      · cases h

theorem setBound_ok {rnd : ℚ → ℚ} {p q : UParam} (hb : WithinBounds p) (c : Cmd)
    (hc : (∃ v, IsFin v ∧ c = .setMin v) ∨ (∃ v, IsFin v ∧ c = .setMax v))
    (h : p.step rnd c = (q, none)) :
    WithinBounds q ∧ (q.log = true → PositiveMin q) ∧ q.log = p.log ∧ q.fixed = p.fixed ∧
    q.default = p.default ∧
      ((∃ v, c = .setMin v ∧ q.min = v ∧ q.max = p.max) ∨
       (∃ v, c = .setMax v ∧ q.max = v ∧ q.min = p.min)) := by
  obtain ⟨lo, d, hi, e1, e2, e3, h1, h2, h3⟩ := hb
  rcases hc with ⟨v, ⟨x, rfl⟩, rfl⟩ | ⟨v, ⟨x, rfl⟩, rfl⟩
  all_goals
    unfold UParam.step UParam.checkAndSet at h
    simp only [Option.getD_some, Option.getD_none, e1, e2, e3] at h
    split at h
    · simp at h
    rename_i he
    rw [rangeError_fin] at he
    obtain ⟨c1, c2, c3, c4⟩ := he
    simp at h
    subst h
  · exact ⟨⟨x, d, hi, rfl, e2, e3, c3, c4, c2⟩, fun hl => ⟨x, rfl, c1 hl⟩, rfl, rfl, rfl,
      .inl ⟨_, rfl, rfl, rfl⟩⟩
  · exact ⟨⟨lo, d, x, e1, e2, rfl, c3, c4, c2⟩, fun hl => ⟨lo, e1, c1 hl⟩, rfl, rfl, rfl,
      .inr ⟨_, rfl, rfl, rfl⟩⟩

/-- One command with finite numbers keeps `min ≤ default ≤ max`, `min < max`. -/
theorem step_within {rnd : ℚ → ℚ} (hr : NudgeFits rnd) {p : UParam} (hb : WithinBounds p) (c : Cmd)
    (hc : FiniteCmd c) : WithinBounds (p.step rnd c).1 := by
  rcases hs : p.step rnd c with ⟨q, _ | e⟩
  · cases c with
    | setDefault v =>
      obtain ⟨lo, d, hi, e1, e2, e3, h⟩ := hb
      exact (setDefault_ok hr hc ⟨lo, hi, e1, e3⟩ hs).1
    | setMin v => exact (setBound_ok hb _ (.inl ⟨v, hc, rfl⟩) hs).1
    | setMax v => exact (setBound_ok hb _ (.inr ⟨v, hc, rfl⟩) hs).1
    | setLog b =>
      simp only [UParam.step] at hs
      split at hs <;> simp at hs <;> subst hs <;> exact hb
    | setFixed b =>
      rcases setFixed_ok hr b hb with ⟨_, _, h⟩ | ⟨_, _, h, _⟩
      · rw [hs] at h; simp at h
      · rw [hs] at h; exact h
  · cases c with
    | setDefault v => rw [checkAndSet_rejected hs]; exact hb
    | setMin v => rw [checkAndSet_rejected hs]; exact hb
    | setMax v => rw [checkAndSet_rejected hs]; exact hb
    | setLog b => simp only [UParam.step] at hs; split at hs <;> simp at hs
    | setFixed b => rw [checkAndSet_rejected hs]; exact hb

theorem run_within {rnd : ℚ → ℚ} (hr : NudgeFits rnd) (cs : List Cmd) : ∀ {p : UParam},
    WithinBounds p → (∀ c ∈ cs, FiniteCmd c) → WithinBounds (p.run rnd cs) := by
  induction cs with
  | nil => intro p hb _; exact hb
  | cons c cs ih =>
    intro p hb hc
    exact ih (step_within hr hb c (hc c (by simp))) (fun c' h => hc c' (by simp [h]))

theorem step_safe {rnd : ℚ → ℚ} (hr : NudgeFits rnd) {p : UParam} (hb : WithinBounds p) (hg : Good p)
    (c : Cmd) (hc : SafeCmd p c) : Good (p.step rnd c).1 := by
  rcases hs : p.step rnd c with ⟨q, _ | e⟩
  · cases c with
    | setDefault v =>
      obtain ⟨lo, d, hi, e1, e2, e3, h⟩ := hb
      exact (setDefault_ok hr hc ⟨lo, hi, e1, e3⟩ hs).2.1
    | setMin v =>
      obtain ⟨⟨lo, d, hi, e1, e2, e3, h1, h2, h3⟩, hl, _, hf, hd, hx⟩ :=
        setBound_ok hb _ (.inl ⟨v, hc.1, rfl⟩) hs
      refine ⟨fun hfr => ?_, hl⟩
      have hne := hc.2 (hf ▸ hfr)
      obtain ⟨lo', d', hi', i1, i2, i3, j1, j2⟩ := hg.1 (hf ▸ hfr)
      rcases hx with ⟨v', hv', hq, hm⟩ | ⟨v', hv', _, _⟩
      · cases hv'
        refine ⟨lo, d, hi, e1, e2, e3, ?_, ?_⟩
        · refine lt_of_le_of_ne h1 fun h => hne ?_
          rw [← hq, ← hd, e1, e2, h]
        · rw [hm, i3] at e3; rw [hd, i2] at e2; cases e3; cases e2; exact j2
      · cases hv'
    | setMax v =>
      obtain ⟨⟨lo, d, hi, e1, e2, e3, h1, h2, h3⟩, hl, _, hf, hd, hx⟩ :=
        setBound_ok hb _ (.inr ⟨v, hc.1, rfl⟩) hs
      refine ⟨fun hfr => ?_, hl⟩
      have hne := hc.2 (hf ▸ hfr)
      obtain ⟨lo', d', hi', i1, i2, i3, j1, j2⟩ := hg.1 (hf ▸ hfr)
      rcases hx with ⟨v', hv', _, _⟩ | ⟨v', hv', hq, hm⟩
      · cases hv'
      · cases hv'
        refine ⟨lo, d, hi, e1, e2, e3, ?_, ?_⟩
        · rw [hm, i1] at e1; rw [hd, i2] at e2; cases e1; cases e2; exact j1
        · refine lt_of_le_of_ne h2 fun h => hne ?_
          rw [← hq, ← hd, e3, e2, h]
    | setLog b =>
      simp only [UParam.step] at hs
      split at hs <;> simp at hs <;> subst hs
      · exact ⟨hg.1, fun h => hc h⟩
      · exact hg
    | setFixed b =>
      rcases setFixed_ok hr b hb with ⟨_, _, h⟩ | ⟨_, _, _, h, _⟩
      · rw [hs] at h; simp at h
      · rw [hs] at h; exact h
  · cases c with
    | setDefault v => rw [checkAndSet_rejected hs]; exact hg
    | setMin v => rw [checkAndSet_rejected hs]; exact hg
    | setMax v => rw [checkAndSet_rejected hs]; exact hg
    | setLog b => simp only [UParam.step] at hs; split at hs <;> simp at hs
    | setFixed b =>
      exfalso
      rcases setFixed_ok hr b hb with ⟨h, h', _⟩ | ⟨_, h, _⟩
      · exact h' (hg.2 h)
      · rw [hs] at h; simp at h

theorem safe_finite {p : UParam} {c : Cmd} (h : SafeCmd p c) : FiniteCmd c := by
  cases c with
  | setDefault v => exact h
  | setMin v => exact h.1
  | setMax v => exact h.1
  | setLog b => trivial
  | setFixed b => trivial

/-! ## C26 -/

/-- **C26 (restricted).** A parameter created from ordinary numbers, and any history of assignments
of ordinary numbers in which no bound of a free parameter is put exactly on the default and the
scale is not switched to logarithmic below zero: the free parameter starts strictly inside its
bounds and a logarithmic parameter has a positive lower bound.

Missing from the full statement: the excluded assignments, see the refutations below. -/
theorem C26_free_inside_partial {rnd : ℚ → ℚ} (hr : NudgeFits rnd) (d lo hi : ℚ) (log fixed : Bool)
    (p : UParam) (h : UParam.create rnd (.fin d) (.fin lo) (.fin hi) log fixed = .ok p) (cs : List Cmd)
    (hs : SafeRun rnd p cs) : Good (p.run rnd cs) := by
  have hb := (create_ok hr ⟨d, rfl⟩ ⟨lo, rfl⟩ ⟨hi, rfl⟩ h).1
  have hg := (create_ok hr ⟨d, rfl⟩ ⟨lo, rfl⟩ ⟨hi, rfl⟩ h).2.1
  clear h
  induction cs generalizing p with
  | nil => exact hg
  | cons c cs ih =>
    exact ih _ hs.2 (step_within hr hb c (safe_finite hs.1)) (step_safe hr hb hg c hs.1)

/-- **C26.** With ordinary numbers, whatever the history (safe or not, including rejected
assignments): `min < max` and `min ≤ default ≤ max` at all times. -/
theorem C26_closed_bounds {rnd : ℚ → ℚ} (hr : NudgeFits rnd) (d lo hi : ℚ) (log fixed : Bool)
    (p : UParam) (h : UParam.create rnd (.fin d) (.fin lo) (.fin hi) log fixed = .ok p) (cs : List Cmd)
    (hc : ∀ c ∈ cs, FiniteCmd c) : WithinBounds (p.run rnd cs) :=
  run_within hr cs (create_ok hr ⟨d, rfl⟩ ⟨lo, rfl⟩ ⟨hi, rfl⟩ h).1 hc

/-- **C26.** After any history of assignments of ordinary numbers, an accepted assignment of
`default` or of `fixed` puts a free parameter strictly inside its bounds (and certifies a positive
lower bound for a logarithmic one). -/
theorem C26_restored {rnd : ℚ → ℚ} (hr : NudgeFits rnd) (d lo hi : ℚ) (log fixed : Bool)
    (p : UParam) (h : UParam.create rnd (.fin d) (.fin lo) (.fin hi) log fixed = .ok p) (cs : List Cmd)
    (hc : ∀ c ∈ cs, FiniteCmd c) (c : Cmd)
    (hlast : (∃ v : ℚ, c = .setDefault (.fin v)) ∨ (∃ b, c = .setFixed b))
    (hok : ((p.run rnd cs).step rnd c).2 = none) : Good ((p.run rnd cs).step rnd c).1 := by
  have hb := C26_closed_bounds hr d lo hi log fixed p h cs hc
  generalize p.run rnd cs = q at hb hok ⊢
  rcases hlast with ⟨v, rfl⟩ | ⟨b, rfl⟩
  · obtain ⟨l, x, u, e1, e2, e3, _⟩ := hb
    rcases hs : q.step rnd (.setDefault (.fin v)) with ⟨q', _ | e⟩
    · exact (setDefault_ok hr ⟨v, rfl⟩ ⟨l, u, e1, e3⟩ hs).2.1
    · rw [hs] at hok; simp at hok
  · rcases setFixed_ok hr b hb with ⟨_, _, h⟩ | ⟨_, _, _, h, _⟩
    · rw [h] at hok; simp at hok
    · exact h

/-- **C26.** The prior used for sampling always has the displayed scale and bounds, whatever values
(including NaN and infinities) were assigned and whatever the rounding. -/
theorem C26_prior (rnd : ℚ → ℚ) (d lo hi : Val) (log fixed : Bool) (p : UParam)
    (h : UParam.create rnd d lo hi log fixed = .ok p) (cs : List Cmd) :
    PriorMirrors (p.run rnd cs) := by
  have h0 : PriorMirrors p := by
    unfold UParam.create at h
    simp only at h
    split at h
    · cases h
    · split at h
      · cases h
      · split at h
        · rename_i hc
          cases h
          have := checkAndSet_prior (rnd := rnd) (p := ⟨d, lo, hi, log, fixed, ⟨log, lo, hi⟩⟩)
            (some d) none none rfl
          rw [hc] at this; exact this
        · cases h
  clear h
  induction cs generalizing p with
  | nil => exact h0
  | cons c cs ih =>
    refine ih _ ?_
    cases c with
    | setDefault v => exact checkAndSet_prior _ _ _ h0
    | setMin v => exact checkAndSet_prior _ _ _ h0
    | setMax v => exact checkAndSet_prior _ _ _ h0
    | setLog b =>
      simp only [UParam.step]
      split
      · rfl
      · exact h0
    | setFixed b => exact checkAndSet_prior _ _ _ h0

/-- **C26.** A parameter defined by a prior distribution keeps its default inside the support of the
prior whatever is assigned; a rejected assignment changes nothing. -/
theorem C26_support (support : Val → Bool) (d : Val) (log fixed : Bool) (p : DParam)
    (h : DParam.create support d log fixed = .ok p) (vs : List Val) :
    support ((vs.foldl (fun q v => (q.setDefault v).1) p).default) = true := by
  have h0 : p.support = support ∧ p.support p.default = true := by
    unfold DParam.create at h
    split at h <;> cases h
    exact ⟨rfl, by assumption⟩
  clear h
  induction vs generalizing p with
  | nil => rw [← h0.1]; exact h0.2
  | cons v vs ih =>
    refine ih _ ?_
    simp only [DParam.setDefault]
    split
    · exact ⟨h0.1, by assumption⟩
    · exact h0

/-- The state `x ∈ (0, 10)`, default 1, used as a witness. -/
def exParam : UParam := ⟨.fin 1, .fin 0, .fin 10, false, false, ⟨false, .fin 0, .fin 10⟩⟩

example : UParam.create id (.fin 1) (.fin 0) (.fin 10) false false = .ok exParam := by decide +kernel

/-- non-vacuity of the safe histories: a boundary default is reset, bounds are moved, the parameter
is frozen and freed again. -/
example : SafeRun id exParam [.setDefault (.fin 10), .setMin (.fin 1), .setFixed true,
    .setFixed false, .setLog true] := by
  refine ⟨⟨_, rfl⟩, ⟨⟨_, rfl⟩, ?_⟩, trivial, trivial, ?_, trivial⟩
  · intro _; decide +kernel
  · intro _; exact ⟨1, by decide +kernel, by norm_num⟩

/-- **C26 (refuted).** Moving the lower bound of a free parameter onto its default is accepted and
leaves the default on the boundary. -/
theorem C26_bound_on_default_refuted :
    ∃ (p : UParam) (c : Cmd), UParam.create id (.fin 1) (.fin 0) (.fin 10) false false = .ok p ∧
      FiniteCmd c ∧ (p.step id c).2 = none ∧ (p.step id c).1.fixed = false ∧
      ¬ StrictlyInside (p.step id c).1 := by
  refine ⟨exParam, .setMin (.fin 1), by decide +kernel, ⟨_, rfl⟩, by decide +kernel,
    by decide +kernel, ?_⟩
  rintro ⟨lo, d, hi, e1, e2, e3, h1, h2⟩
  have a : (exParam.step id (.setMin (.fin 1))).1.min = .fin 1 := by decide +kernel
  have b : (exParam.step id (.setMin (.fin 1))).1.default = .fin 1 := by decide +kernel
  rw [a] at e1; rw [b] at e2; cases e1; cases e2; exact lt_irrefl _ h1

/-- **C26 (refuted).** Switching to a logarithmic scale is accepted with a non-positive lower bound;
the prior is then log-uniform from zero. -/
theorem C26_log_refuted :
    ∃ (p : UParam), UParam.create id (.fin 1) (.fin 0) (.fin 10) false false = .ok p ∧
      (p.step id (.setLog true)).2 = none ∧ (p.step id (.setLog true)).1.log = true ∧
      (p.step id (.setLog true)).1.prior = ⟨true, .fin 0, .fin 10⟩ ∧
      ¬ PositiveMin (p.step id (.setLog true)).1 := by
  refine ⟨exParam, by decide +kernel, by decide +kernel, by decide +kernel, by decide +kernel, ?_⟩
  rintro ⟨lo, e, h⟩
  have a : (exParam.step id (.setLog true)).1.min = .fin 0 := by decide +kernel
  rw [a] at e; cases e; exact lt_irrefl _ h

/-- **C26 (refuted).** NaN passes every range check: assigning it to `default`, `min` or `max` of an
existing parameter is accepted (only the constructor rejects a NaN default), whatever the
state and the rounding, unless another check fails. -/
theorem C26_nan_refuted (rnd : ℚ → ℚ) :
    (exParam.step rnd (.setDefault .nan)).2 = none ∧
      (exParam.step rnd (.setDefault .nan)).1.default = .nan ∧
    (exParam.step rnd (.setMin .nan)).2 = none ∧ (exParam.step rnd (.setMin .nan)).1.min = .nan ∧
    (exParam.step rnd (.setMax .nan)).2 = none ∧ (exParam.step rnd (.setMax .nan)).1.max = .nan ∧
    UParam.create rnd .nan (.fin 0) (.fin 10) false false = .error .support := by
  refine ⟨rfl, rfl, rfl, rfl, rfl, rfl, rfl⟩

/-- **C26 (refuted).** With an infinite upper bound the reset of a default lying on the lower bound
produces a NaN default: the parameter is created with default NaN. -/
theorem C26_infinite_bound_refuted (rnd : ℚ → ℚ) :
    ∃ p, UParam.create rnd (.fin 0) (.fin 0) .pinf false false = .ok p ∧ p.default = .nan :=
  ⟨_, rfl, rfl⟩

/-- **C26 (refuted).** In floating point the reset can be rounded away. Between `2^52` and `2^53`
doubles are exactly the integers; for every rounding that rounds to a nearest double there, the
free parameter `Uniform(2^52, 2^52 + 2)` with default `2^52` keeps its default on the bound. -/
theorem C26_rounding_refuted (rnd : ℚ → ℚ)
    (hnear : ∀ x : ℚ, 2 ^ 52 ≤ x → x ≤ 2 ^ 53 → (∃ n : ℤ, rnd x = n) ∧ ∀ n : ℤ, |rnd x - x| ≤ |n - x|)
    (h2 : rnd 2 = 2) (heps : 0 ≤ rnd (eps * 2) ∧ rnd (eps * 2) < 1 / 4) :
    ∃ p, UParam.create rnd (.fin (2 ^ 52)) (.fin (2 ^ 52)) (.fin (2 ^ 52 + 2)) false false = .ok p ∧
      p.default = p.min ∧ p.fixed = false := by
  obtain ⟨h0, h1⟩ := heps
  set δ := rnd (eps * 2) with hδ
  have hx := hnear (2 ^ 52 + δ) (by linarith) (by norm_num; linarith)
  obtain ⟨⟨n, hn⟩, hmin⟩ := hx
  have hm := hmin (2 ^ 52)
  have hδ' : |(((2 : ℤ) ^ 52 : ℤ) : ℚ) - (2 ^ 52 + δ)| = δ := by
    rw [show (((2 : ℤ) ^ 52 : ℤ) : ℚ) - (2 ^ 52 + δ) = -δ by push_cast; ring, abs_neg, abs_of_nonneg h0]
  rw [hδ', hn, abs_le] at hm
  have hnn : n = 2 ^ 52 := by
    have h3 : ((n : ℤ) : ℚ) < (2 ^ 52 : ℤ) + 1 := by push_cast; linarith [hm.2]
    have h4 : (((2 : ℤ) ^ 52 - 1 : ℤ) : ℚ) < n := by push_cast; linarith [hm.1]
    have h3' : n < 2 ^ 52 + 1 := by exact_mod_cast h3
    have h4' : (2 : ℤ) ^ 52 - 1 < n := by exact_mod_cast h4
    omega
  have hr : rnd (2 ^ 52 + rnd (eps * rnd (2 ^ 52 + 2 + -2 ^ 52))) = 2 ^ 52 := by
    rw [show (2 : ℚ) ^ 52 + 2 + -2 ^ 52 = 2 by ring, h2, ← hδ, hn, hnn]; norm_num
  refine ⟨⟨.fin (2 ^ 52), .fin (2 ^ 52), .fin (2 ^ 52 + 2), false, false,
    ⟨false, .fin (2 ^ 52), .fin (2 ^ 52 + 2)⟩⟩, ?_, rfl, rfl⟩
  have hre : rangeError false (.fin (2 ^ 52)) (.fin (2 ^ 52)) (.fin (2 ^ 52 + 2)) = none :=
    (rangeError_fin ..).2 ⟨by simp, by norm_num, le_refl _, by norm_num⟩
  have hnu : nudge rnd false (.fin (2 ^ 52)) (.fin (2 ^ 52)) (.fin (2 ^ 52 + 2)) = .fin (2 ^ 52) := by
    simp only [nudge, nudgeLo, nudgeHi, eq_fin, Val.sub, Val.add, Val.neg, Val.smulPos]
    simp only [decide_true, Bool.not_false, Bool.and_self, if_true, hr]
    simp
  have hcont : Prior.contains ⟨false, .fin (2 ^ 52), .fin (2 ^ 52 + 2)⟩ (.fin (2 ^ 52)) = true := by
    simp [Prior.contains]
  simp only [UParam.create, hre, hcont, UParam.checkAndSet, Option.getD_some, Option.getD_none, hnu]
  simp

/-- non-vacuity: rounding to the nearest integer above `2^52` and exact arithmetic below. -/
example : ∃ rnd : ℚ → ℚ,
    (∀ x : ℚ, 2 ^ 52 ≤ x → x ≤ 2 ^ 53 → (∃ n : ℤ, rnd x = n) ∧ ∀ n : ℤ, |rnd x - x| ≤ |n - x|) ∧
    rnd 2 = 2 ∧ 0 ≤ rnd (eps * 2) ∧ rnd (eps * 2) < 1 / 4 := by
  refine ⟨fun x => if 2 ^ 52 ≤ x then (round x : ℚ) else x, ?_, by norm_num, ?_, ?_⟩
  · intro x h _
    simp only [h, if_true]
    refine ⟨⟨_, rfl⟩, fun n => ?_⟩
    rw [abs_sub_comm, abs_sub_comm (n : ℚ)]
    exact round_le x n
  · norm_num [eps]
  · norm_num [eps]

/-! ## C27 -/

/-- **C27 (restricted).** A rejected assignment of `default`, `min`, `max` or `log` leaves the whole
parameter unchanged — any state, any value, any rounding.

Missing: the `fixed` setter, see `C27_fixed_refuted`. -/
theorem C27_rejected_partial (rnd : ℚ → ℚ) (p : UParam) (c : Cmd) (hc : ∀ b, c ≠ .setFixed b) (e : PErr)
    (h : (p.step rnd c).2 = some e) : (p.step rnd c).1 = p := by
  rcases hs : p.step rnd c with ⟨q, e'⟩
  rw [hs] at h
  simp only at h ⊢
  subst h
  cases c with
  | setDefault v => exact checkAndSet_rejected hs
  | setMin v => exact checkAndSet_rejected hs
  | setMax v => exact checkAndSet_rejected hs
  | setLog b => simp only [UParam.step] at hs; split at hs <;> simp at hs
  | setFixed b => exact absurd rfl (hc b)

example : (exParam.step id (.setMin (.fin 10))).2 = some .minMax ∧
    (exParam.step id (.setDefault (.fin 11))).2 = some .above := by decide +kernel

/-- **C27.** Freezing or freeing a parameter after a history of ordinary numbers can only fail in one
way: a logarithmic parameter whose lower bound is not positive. -/
theorem C27_fixed_fails_only_log {rnd : ℚ → ℚ} (hr : NudgeFits rnd) (d lo hi : ℚ) (log fixed : Bool)
    (p : UParam) (h : UParam.create rnd (.fin d) (.fin lo) (.fin hi) log fixed = .ok p) (cs : List Cmd)
    (hc : ∀ c ∈ cs, FiniteCmd c) (b : Bool) (e : PErr)
    (he : ((p.run rnd cs).step rnd (.setFixed b)).2 = some e) :
    e = .logMin ∧ (p.run rnd cs).log = true ∧ ¬ PositiveMin (p.run rnd cs) := by
  have hb := C26_closed_bounds hr d lo hi log fixed p h cs hc
  rcases setFixed_ok hr b hb with ⟨h1, h2, h3⟩ | ⟨_, h1, _⟩
  · rw [h3] at he; exact ⟨(Option.some.inj he).symm, h1, h2⟩
  · rw [h1] at he; simp at he

/-- **C27 (refuted).** `fixed = True` on a parameter that was switched to a logarithmic scale with a
zero lower bound raises, but the parameter is now frozen. -/
theorem C27_fixed_refuted :
    ∃ p : UParam, UParam.create id (.fin 1) (.fin 0) (.fin 10) false false = .ok p ∧
      ∃ q, (p.step id (.setLog true)) = (q, none) ∧ (q.step id (.setFixed true)).2 = some .logMin ∧
        q.fixed = false ∧ (q.step id (.setFixed true)).1.fixed = true :=
  ⟨exParam, by decide +kernel, _, rfl, by decide +kernel, by decide +kernel, by decide +kernel⟩

/-- the histories of the theorems above, for the parameter `exParam` -/
example := C26_closed_bounds nudgeFits_exact 1 0 10 false false exParam (by decide +kernel) [.setDefault (.fin 10), .setMin (.fin 1), .setFixed true] (by
  intro c hc
  simp at hc
  rcases hc with rfl | rfl | rfl
  · exact ⟨_, rfl⟩
  · exact ⟨_, rfl⟩
  · trivial)

example := C26_restored nudgeFits_exact 1 0 10 false false exParam (by decide +kernel) [.setMin (.fin 1)] (by
  intro c hc
  simp at hc
  subst hc
  exact ⟨_, rfl⟩) (.setFixed false) (Or.inr ⟨_, rfl⟩) (by decide +kernel)

example := C26_prior id (.fin 1) (.fin 0) (.fin 10) false false exParam (by decide +kernel) [.setMin (.fin 1), .setMax (.fin 7)]
example := C26_infinite_bound_refuted id

end Elisa.Models
