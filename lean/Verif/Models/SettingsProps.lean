import Verif.Models.Settings
import Verif.Models.ShiftProps
import Verif.Models.MulProps

/-!
# C76: component settings take effect

Specification: the setting of an attribute after a history is the value of the last assignment that
was accepted, or the constructor's value; a function obtained from the component uses the settings at
the time it was requested.
-/

namespace Elisa.Models.Settings

open Spectra

/-! ## Flux normalisation -/

/-- The operations of a history that did not raise. -/
def accepted (s : Norm) : List NormOp → List NormOp
  | [] => []
  | op :: ops => match s.step op with
    | .ok s' => op :: accepted s' ops
    | .error _ => accepted s ops

/-- The last accepted value of each attribute. -/
def lastEmin (d : Val) (ops : List NormOp) : Val :=
  ops.foldl (fun v op => match op with | .emin x => x | .emax _ => v | .ngrid _ => v | .elog _ => v | .eval => v) d
@[inherit_doc lastEmin]
def lastEmax (d : Val) (ops : List NormOp) : Val :=
  ops.foldl (fun v op => match op with | .emax x => x | .emin _ => v | .ngrid _ => v | .elog _ => v | .eval => v) d
@[inherit_doc lastEmin]
def lastElog (d : Bool) (ops : List NormOp) : Bool :=
  ops.foldl (fun v op => match op with | .elog x => x | .emin _ => v | .emax _ => v | .ngrid _ => v | .eval => v) d
@[inherit_doc lastEmin]
def lastNgrid (d : Int) (ops : List NormOp) : Int :=
  ops.foldl (fun v op => match op with
    | .ngrid (.fin r) => if 0 ≤ r then ⌊r⌋ else ⌈r⌉
    | .ngrid .nan => v | .ngrid .ninf => v | .ngrid .pinf => v
    | .emin _ => v | .emax _ => v | .elog _ => v | .eval => v) d

/-- The cached function belongs to `_prev_config`. -/
def CacheOk (s : Norm) : Prop := s.prev = s.jit

theorem eval_spec {s s' : Norm} {f : Band} (hc : CacheOk s) (h : s.eval = .ok (s', f)) :
    f = s.cur ∧ s'.cur = s.cur ∧ CacheOk s' ∧ s'.obtained = s.obtained ++ [s.cur] := by
  obtain ⟨cur, prev, jit, obt⟩ := s
  simp only [CacheOk] at hc
  subst hc
  cases prev with
  | none =>
    simp only [Norm.eval] at h
    split_ifs at h
    cases h
    exact ⟨rfl, rfl, rfl, rfl⟩
  | some g =>
    simp only [Norm.eval, Option.some.injEq] at h
    split_ifs at h with h1
    · cases h
      subst h1
      exact ⟨rfl, rfl, rfl, rfl⟩
    · cases h
      exact ⟨rfl, rfl, rfl, rfl⟩

theorem store_ok {s s' : Norm} {c : Except SErr Band} (h : s.store c = .ok s') :
    ∃ b, c = .ok b ∧ s' = { s with cur := b } := by
  cases c with
  | error e => cases h
  | ok b => cases h; exact ⟨b, rfl, rfl⟩

theorem step_cache {s s' : Norm} {op : NormOp} (hc : CacheOk s) (h : s.step op = .ok s') : CacheOk s' := by
  cases op with
  | eval =>
    simp only [Norm.step] at h
    split at h
    · rename_i s1 f he; cases h; exact (eval_spec hc he).2.2.1
    · cases h
  | emin v => obtain ⟨b, _, rfl⟩ := store_ok h; exact hc
  | emax v => obtain ⟨b, _, rfl⟩ := store_ok h; exact hc
  | ngrid v => obtain ⟨b, _, rfl⟩ := store_ok h; exact hc
  | elog v => obtain ⟨b, _, rfl⟩ := store_ok (c := setElog s.cur v) h; exact hc

theorem run_cache {s : Norm} (hc : CacheOk s) (ops : List NormOp) : CacheOk (s.run ops) := by
  induction ops generalizing s with
  | nil => exact hc
  | cons op ops ih =>
    simp only [Norm.run]
    split
    · rename_i s' h; exact ih (step_cache hc h)
    · exact ih hc

theorem init_spec {emin emax : Val} {n : Option Val} {lg : Option Bool} {s : Norm} (h : Norm.init emin emax n lg = .ok s) :
    CacheOk s ∧ s.obtained = [] ∧ s.cur.emin = emin ∧ s.cur.emax = emax ∧ Val.le emax emin = false ∧
      pyInt (n.getD (.fin 1000)) = .ok s.cur.ngrid ∧ s.cur.elog = lg.getD true := by
  simp only [Norm.init, setEmax] at h
  split_ifs at h with h1
  simp only [setNgrid] at h
  cases hn : pyInt (n.getD (.fin 1000)) with
  | error e => simp [hn] at h
  | ok k =>
    simp only [hn] at h
    cases h
    exact ⟨rfl, rfl, rfl, rfl, by simpa using h1, rfl, rfl⟩

/-- **C76.** After any history of assignments and evaluations, whatever was cached on the way, a
function requested from a flux-normalising component uses the current band, number of points and
spacing; it is refused only for a negative number of points; and requesting it changes no setting. -/
theorem C76_band_current (emin emax : Val) (n : Option Val) (lg : Option Bool) (s : Norm)
    (hi : Norm.init emin emax n lg = .ok s) (ops : List NormOp) :
    (∀ s' f, (s.run ops).eval = .ok (s', f) → f = (s.run ops).cur ∧ s'.cur = (s.run ops).cur) ∧
    (0 ≤ (s.run ops).cur.ngrid → ∃ s' f, (s.run ops).eval = .ok (s', f)) := by
  have hc := run_cache (init_spec hi).1 ops
  refine ⟨fun s' f h => ⟨(eval_spec hc h).1, (eval_spec hc h).2.1⟩, fun hn => ?_⟩
  generalize s.run ops = t at *
  unfold Norm.eval
  cases t.jit with
  | none => simp only [not_lt.2 hn, if_false]; exact ⟨_, _, rfl⟩
  | some g =>
    simp only [not_lt.2 hn, if_false]
    split_ifs <;> exact ⟨_, _, rfl⟩

/-- **C76.** The current settings are the last accepted assignments; a rejected assignment has no
effect. -/
theorem C76_band_last_accepted (s : Norm) (ops : List NormOp) (hc : CacheOk s) :
    (s.run ops).cur = ⟨lastEmin s.cur.emin (accepted s ops), lastEmax s.cur.emax (accepted s ops),
      lastNgrid s.cur.ngrid (accepted s ops), lastElog s.cur.elog (accepted s ops)⟩ := by
  induction ops generalizing s with
  | nil => rfl
  | cons op ops ih =>
    simp only [Norm.run, accepted]
    cases h : s.step op with
    | error e => exact ih s hc
    | ok s' =>
      simp only
      rw [ih s' (step_cache hc h)]
      cases op with
      | eval =>
        simp only [Norm.step] at h
        split at h
        · rename_i s1 f he
          cases h
          rw [(eval_spec hc he).2.1]
          rfl
        · cases h
      | emin v =>
        obtain ⟨b, hb, rfl⟩ := store_ok h
        simp only [setEmin] at hb
        split_ifs at hb
        cases hb; rfl
      | emax v =>
        obtain ⟨b, hb, rfl⟩ := store_ok h
        simp only [setEmax] at hb
        split_ifs at hb
        cases hb; rfl
      | ngrid v =>
        obtain ⟨b, hb, rfl⟩ := store_ok h
        cases v with
        | fin r => cases hb; rfl
        | nan => cases hb
        | ninf => cases hb
        | pinf => cases hb
      | elog v =>
        obtain ⟨b, hb, rfl⟩ := store_ok (c := setElog s.cur v) h
        cases hb; rfl

/-- **C76.** A function already handed out is not affected by anything that happens later. -/
theorem C76_obtained_kept (s : Norm) (ops : List NormOp) (hc : CacheOk s) : ∃ l, (s.run ops).obtained = s.obtained ++ l := by
  induction ops generalizing s with
  | nil => exact ⟨[], by simp [Norm.run]⟩
  | cons op ops ih =>
    simp only [Norm.run]
    cases h : s.step op with
    | error e => exact ih s hc
    | ok s' =>
      obtain ⟨l, hl⟩ := ih s' (step_cache hc h)
      rw [hl]
      cases op with
      | eval =>
        simp only [Norm.step] at h
        split at h
        · rename_i s1 f he
          cases h
          rw [(eval_spec hc he).2.2.2]
          exact ⟨s.cur :: l, by simp⟩
        · cases h
      | emin v => obtain ⟨b, _, rfl⟩ := store_ok h; exact ⟨l, rfl⟩
      | emax v => obtain ⟨b, _, rfl⟩ := store_ok h; exact ⟨l, rfl⟩
      | ngrid v => obtain ⟨b, _, rfl⟩ := store_ok h; exact ⟨l, rfl⟩
      | elog v => obtain ⟨b, _, rfl⟩ := store_ok (c := setElog s.cur v) h; exact ⟨l, rfl⟩

/-- Only ordinary numbers are given for the ends of the band. -/
def FiniteOps (ops : List NormOp) : Prop :=
  (∀ v, .emin v ∈ ops → v.IsFin) ∧ (∀ v, .emax v ∈ ops → v.IsFin)

theorem run_ordered (s : Norm) (hc : CacheOk s) (h : ∃ a b : ℚ, s.cur.emin = .fin a ∧ s.cur.emax = .fin b ∧ a < b)
    (ops : List NormOp) (hf : FiniteOps ops) :
    ∃ a b : ℚ, (s.run ops).cur.emin = .fin a ∧ (s.run ops).cur.emax = .fin b ∧ a < b := by
  induction ops generalizing s with
  | nil => exact h
  | cons op ops ih =>
    have hf' : FiniteOps ops := ⟨fun v hv => hf.1 v (by simp [hv]), fun v hv => hf.2 v (by simp [hv])⟩
    simp only [Norm.run]
    cases hs : s.step op with
    | error e => exact ih s hc h hf'
    | ok s' =>
      refine ih s' (step_cache hc hs) ?_ hf'
      obtain ⟨a, b, ha, hb, hab⟩ := h
      cases op with
      | eval =>
        simp only [Norm.step] at hs
        split at hs
        · rename_i s1 f he
          cases hs
          rw [(eval_spec hc he).2.1]
          exact ⟨a, b, ha, hb, hab⟩
        · cases hs
      | emin v =>
        obtain ⟨c, hcb, rfl⟩ := store_ok hs
        obtain ⟨r, rfl⟩ := hf.1 v (by simp)
        simp only [setEmin, hb] at hcb
        split_ifs at hcb with h1
        cases hcb
        refine ⟨r, b, rfl, rfl, ?_⟩
        simp only [Val.le, Val.lt, Val.eq, Bool.or_eq_true, decide_eq_true_eq, not_or, not_lt] at h1
        exact lt_of_le_of_ne h1.1 (fun e => h1.2 e.symm)
      | emax v =>
        obtain ⟨c, hcb, rfl⟩ := store_ok hs
        obtain ⟨r, rfl⟩ := hf.2 v (by simp)
        simp only [setEmax, ha] at hcb
        split_ifs at hcb with h1
        cases hcb
        refine ⟨a, r, rfl, rfl, ?_⟩
        simp only [Val.le, Val.lt, Val.eq, Bool.or_eq_true, decide_eq_true_eq, not_or, not_lt] at h1
        exact lt_of_le_of_ne h1.1 (fun e => h1.2 e.symm)
      | ngrid v =>
        obtain ⟨c, hcb, rfl⟩ := store_ok hs
        simp only [setNgrid] at hcb
        split at hcb
        · cases hcb
        · cases hcb; exact ⟨a, b, ha, hb, hab⟩
      | elog v =>
        obtain ⟨c, hcb, rfl⟩ := store_ok (c := setElog s.cur v) hs
        cases hcb
        exact ⟨a, b, ha, hb, hab⟩

/-- **C76 (restricted to finite numbers).** With ordinary numbers the band is never empty or reversed,
whatever the order of the assignments.

Missing: NaN passes the checks, `C76_unvalidated_refuted`. -/
theorem C76_band_ordered_partial (a b : ℚ) (n : Option Val) (lg : Option Bool) (s : Norm)
    (hi : Norm.init (.fin a) (.fin b) n lg = .ok s) (ops : List NormOp) (hf : FiniteOps ops) :
    ∃ x y : ℚ, (s.run ops).cur.emin = .fin x ∧ (s.run ops).cur.emax = .fin y ∧ x < y := by
  obtain ⟨hc, _, h1, h2, h3, _⟩ := init_spec hi
  refine run_ordered s hc ⟨a, b, h1, h2, ?_⟩ ops hf
  simp only [Val.le, Val.lt, Val.eq, Bool.or_eq_false_iff, decide_eq_false_iff_not, not_lt] at h3
  exact lt_of_le_of_ne h3.1 (fun e => h3.2 e.symm)

/-- **C76.** Every band can be selected: one of the two orders of assigning its ends is accepted, from
any band. -/
theorem C76_any_band_selectable (s : Norm) (x y a b : ℚ) (hx : s.cur.emin = .fin x) (hy : s.cur.emax = .fin y)
    (hxy : x < y) (hab : a < b) :
    ∃ ops ∈ [[NormOp.emin (.fin a), .emax (.fin b)], [.emax (.fin b), .emin (.fin a)]],
      accepted s ops = ops ∧ (s.run ops).cur = { s.cur with emin := .fin a, emax := .fin b } := by
  by_cases h : a < y
  · refine ⟨[.emin (.fin a), .emax (.fin b)], by simp, ?_⟩
    have h1 : setEmin s.cur (.fin a) = .ok { s.cur with emin := .fin a } := by
      simp [setEmin, hy, Val.le, Val.lt, Val.eq, not_lt.2 h.le, h.ne']
    have h2 : setEmax { s.cur with emin := .fin a } (.fin b) = .ok { s.cur with emin := .fin a, emax := .fin b } := by
      simp [setEmax, Val.le, Val.lt, Val.eq, not_lt.2 hab.le, hab.ne']
    simp [accepted, Norm.run, Norm.step, Norm.store, h1, h2]
  · have hb : x < b := by linarith
    refine ⟨[.emax (.fin b), .emin (.fin a)], by simp, ?_⟩
    have h1 : setEmax s.cur (.fin b) = .ok { s.cur with emax := .fin b } := by
      simp [setEmax, hx, Val.le, Val.lt, Val.eq, not_lt.2 hb.le, hb.ne']
    have h2 : setEmin { s.cur with emax := .fin b } (.fin a) = .ok { s.cur with emin := .fin a, emax := .fin b } := by
      simp [setEmin, Val.le, Val.lt, Val.eq, not_lt.2 hab.le, hab.ne']
    simp [accepted, Norm.run, Norm.step, Norm.store, h1, h2]

/-- The convolution a compiled `PhFlux` performs: its grid is the one of the settings baked in. -/
noncomputable def phFluxOf (f : Band) (F : ℝ) (model : ModelFn) : ModelFn :=
  match f.emin, f.emax with
  | .fin a, .fin b => phFlux a b F f.ngrid.toNat f.elog model
  | _, _ => fun _ => []

/-- **C76.** End to end: after any history of assignments of ordinary numbers and evaluations, the
function obtained normalises a model to photon flux `F` in the *current* band. -/
theorem C76_flux_in_current_band (a b : ℚ) (n : Option Val) (lg : Option Bool) (s : Norm)
    (hi : Norm.init (.fin a) (.fin b) n lg = .ok s) (ops : List NormOp) (hf : FiniteOps ops) (s' : Norm) (f : Band)
    (he : (s.run ops).eval = .ok (s', f)) (hn : 2 ≤ (s.run ops).cur.ngrid) :
    ∃ x y : ℚ, (s.run ops).cur.emin = .fin x ∧ (s.run ops).cur.emax = .fin y ∧
      ∀ (F : ℝ) (model : ModelFn), WellShaped model → 0 < x →
        flux model x y false (s.run ops).cur.ngrid.toNat (s.run ops).cur.elog ≠ 0 →
        flux (phFluxOf f F model) x y false (s.run ops).cur.ngrid.toNat (s.run ops).cur.elog = F := by
  obtain ⟨x, y, hx, hy, hxy⟩ := C76_band_ordered_partial a b n lg s hi ops hf
  have hfc := ((C76_band_current _ _ n lg s hi ops).1 s' f he).1
  refine ⟨x, y, hx, hy, fun F model hs h0 h => ?_⟩
  subst hfc
  simp only [phFluxOf, hx, hy]
  exact C41_photon_reported x y F (by exact_mod_cast h0) (by exact_mod_cast hxy) _ (by omega) _ model hs h

/-- A usable band: ends are numbers in order, at least one bin, positive when logarithmic. -/
def Usable (c : Band) : Prop :=
  (∃ a b : ℚ, c.emin = .fin a ∧ c.emax = .fin b ∧ a < b ∧ (c.elog = true → 0 < a)) ∧ 2 ≤ c.ngrid

/-- **C76 is violated** for unusable settings, all of which are accepted: NaN ends, a logarithmic band
that starts at zero, zero or negative numbers of points. With one point there is no bin at all, the
flux in the band is computed to be 0 for every model and the normalisation divides by it. -/
theorem C76_unvalidated_refuted :
    (∃ s, Norm.init (.fin 1) .nan none none = .ok s ∧ ¬ Usable s.cur) ∧
    (∃ s, Norm.init (.fin 0) (.fin 10) none none = .ok s ∧ ¬ Usable s.cur) ∧
    (∃ s, Norm.init (.fin 1) (.fin 10) (some (.fin 0)) none = .ok s ∧ ¬ Usable s.cur) ∧
    (∃ s, Norm.init (.fin 1) (.fin 10) (some (.fin (-3))) none = .ok s ∧ ¬ Usable s.cur) ∧
    (∃ s, Norm.init (.fin 1) (.fin 10) (some (.fin 1)) none = .ok s ∧ ¬ Usable s.cur ∧
      ∀ model : ModelFn, WellShaped model → (model (bandGrid 1 10 s.cur.ngrid.toNat s.cur.elog)).sum = 0) := by
  refine ⟨⟨⟨⟨.fin 1, .nan, 1000, true⟩, none, none, []⟩, by simp [Norm.init, setEmax, setNgrid, pyInt, Val.le, Val.lt, Val.eq], ?_⟩,
    ⟨⟨⟨.fin 0, .fin 10, 1000, true⟩, none, none, []⟩, by simp [Norm.init, setEmax, setNgrid, pyInt, Val.le, Val.lt, Val.eq]; norm_num, ?_⟩,
    ⟨⟨⟨.fin 1, .fin 10, 0, true⟩, none, none, []⟩, by simp [Norm.init, setEmax, setNgrid, pyInt, Val.le, Val.lt, Val.eq], ?_⟩,
    ⟨⟨⟨.fin 1, .fin 10, -3, true⟩, none, none, []⟩, by simp [Norm.init, setEmax, setNgrid, pyInt, Val.le, Val.lt, Val.eq]; norm_num [Int.ceil_neg], ?_⟩,
    ⟨⟨⟨.fin 1, .fin 10, 1, true⟩, none, none, []⟩, by simp [Norm.init, setEmax, setNgrid, pyInt, Val.le, Val.lt, Val.eq], ?_, ?_⟩⟩
  · rintro ⟨⟨a, b, _, h, _⟩, _⟩; cases h
  · rintro ⟨⟨a, b, h, _, _, h0⟩, _⟩
    simp at h h0
    subst h
    exact lt_irrefl _ h0
  · rintro ⟨_, h⟩; norm_num at h
  · rintro ⟨_, h⟩; norm_num at h
  · rintro ⟨_, h⟩; norm_num at h
  · intro model hs
    have : (model (bandGrid 1 10 1 true)).length = 0 := by
      rw [hs]; simp [bandGrid, geomspace]
    simp [List.length_eq_zero_iff.1 this]

/-- Non-vacuity: moving the band up requires assigning the upper end first; the cached function is
replaced, then reused. -/
example :
    let s : Norm := ⟨⟨.fin 1, .fin 10, 1000, true⟩, none, none, []⟩
    Norm.init (.fin 1) (.fin 10) none none = .ok s ∧
    (s.run [.eval, .emin (.fin 20), .emax (.fin 30), .emin (.fin 20), .eval, .eval]).obtained =
      [⟨.fin 1, .fin 10, 1000, true⟩, ⟨.fin 20, .fin 30, 1000, true⟩, ⟨.fin 20, .fin 30, 1000, true⟩] := by
  decide +kernel

/-! ## Absorption components -/

/-- Settings allowed for the class. -/
def Abs.Ok (s : Abs) : Prop := s.abund ∈ abundList s.kind ∧ s.xsect ∈ xsectList s.kind

theorem abs_step_ok {s s' : Abs} (h : s.Ok) {op : AbsOp} (hs : s.step op = .ok s') : s'.Ok ∧ s'.kind = s.kind := by
  cases op with
  | abund a =>
    simp only [Abs.step, setAbund] at hs
    split_ifs at hs with h1
    cases hs; exact ⟨⟨h1, h.2⟩, rfl⟩
  | xsect x =>
    simp only [Abs.step, setXsect] at hs
    split_ifs at hs with h1
    cases hs; exact ⟨⟨h.1, h1⟩, rfl⟩
  | method m =>
    simp only [Abs.step, setMethod] at hs
    split at hs
    · cases hs; exact ⟨h, rfl⟩
    · cases hs

theorem abs_run_ok {s : Abs} (h : s.Ok) (ops : List AbsOp) : (s.run ops).Ok ∧ (s.run ops).kind = s.kind := by
  induction ops generalizing s with
  | nil => exact ⟨h, rfl⟩
  | cons op ops ih =>
    simp only [Abs.run]
    split
    · rename_i s' hs
      obtain ⟨h1, h2⟩ := abs_step_ok h hs
      exact ⟨(ih h1).1, (ih h1).2.trans h2⟩
    · exact ih h

theorem abs_init_ok {k : AbsKind} {a x m : Option String} {s : Abs} (h : Abs.init k a x m = .ok s) :
    s.Ok ∧ s.kind = k ∧ s.abund = a.getD (defaultAbund k) ∧ s.xsect = x.getD (defaultXsect k) ∧
      parseMethod (m.getD "trapz") = .ok s.method := by
  simp only [Abs.init, setAbund] at h
  split_ifs at h with h1
  simp only [setXsect] at h
  split_ifs at h with h2
  simp only [setMethod] at h
  split at h
  · rename_i v hv
    cases h; exact ⟨⟨h1, h2⟩, rfl, rfl, rfl, hv⟩
  · cases h

theorem keys_complete (s : Abs) (h : s.Ok) : (tableName s.kind, s.xsect, s.abund) ∈ tableKeys := by
  obtain ⟨k, a, x, m⟩ := s
  obtain ⟨h1, h2⟩ := h
  cases k <;> simp only [abundList, xsectList, tableName, tableKeys, List.mem_append, List.mem_flatMap, List.mem_map] at *
  · exact .inl (.inl ⟨x, h2, a, h1, rfl⟩)
  · simp only [List.mem_singleton] at h2
    exact .inl (.inr ⟨a, h1, by rw [h2]⟩)
  · simp only [List.mem_singleton] at h1 h2
    exact .inr (by simp [h1, h2])

/-- **C76.** After any history of assignments to an absorption component, evaluation finds its table
and uses the current cross sections, abundances and integration method; the value lies between 0 and
1 on every bin for a non-negative column density. -/
theorem C76_absorption_current (tab : String × String × String → List (ℝ × ℝ)) (k : AbsKind)
    (a x m : Option String) (s : Abs) (hi : Abs.init k a x m = .ok s) (ops : List AbsOp) (nH : ℝ) (egrid : List ℝ) :
    let t := tab (tableName k, (s.run ops).xsect, (s.run ops).abund)
    ((s.run ops).method = .trapz → (s.run ops).eval tab nH egrid = .ok (trapz false (photonAbs t nH) egrid)) ∧
    ((s.run ops).method = .simpson → (s.run ops).eval tab nH egrid = .ok (simpson false (photonAbs t nH) egrid)) := by
  obtain ⟨hok, hk, _⟩ := abs_init_ok hi
  obtain ⟨h1, h2⟩ := abs_run_ok hok ops
  have hkey := keys_complete _ h1
  rw [h2, hk] at hkey
  simp only
  constructor <;>
  · intro hm
    simp only [Abs.eval, tableLookup, h2, hk, hkey, if_true, hm]

/-- **C76.** An assignment is accepted exactly for a listed name; then it is the current setting and
nothing else changes; otherwise a `ValueError` is raised. The constructor's defaults are accepted. -/
theorem C76_absorption_assign (s : Abs) (v : String) :
    (v ∈ abundList s.kind → s.step (.abund v) = .ok { s with abund := v }) ∧
    (v ∉ abundList s.kind → s.step (.abund v) = .error .valueError) ∧
    (v ∈ xsectList s.kind → s.step (.xsect v) = .ok { s with xsect := v }) ∧
    (v ∉ xsectList s.kind → s.step (.xsect v) = .error .valueError) ∧
    (s.step (.method "trapz") = .ok { s with method := .trapz }) ∧
    (s.step (.method "simpson") = .ok { s with method := .simpson }) ∧
    (v ≠ "trapz" → v ≠ "simpson" → s.step (.method v) = .error .valueError) ∧
    ∀ k, ∃ s₀, Abs.init k none none none = .ok s₀ ∧ s₀ = ⟨k, defaultAbund k, defaultXsect k, .trapz⟩ := by
  refine ⟨fun h => by simp [Abs.step, setAbund, h], fun h => by simp [Abs.step, setAbund, h],
    fun h => by simp [Abs.step, setXsect, h], fun h => by simp [Abs.step, setXsect, h],
    by simp [Abs.step, setMethod, parseMethod], by simp [Abs.step, setMethod, parseMethod],
    fun h1 h2 => by simp [Abs.step, setMethod, parseMethod, h1, h2], ?_⟩
  intro k
  cases k <;> exact ⟨_, rfl, rfl⟩

example : (Abs.init .wAbs (some "angr") none none = .error .valueError) ∧
    (∃ s, Abs.init .phAbs (some "wilm") none none = .ok s ∧
      s.run [.xsect "nope", .xsect "bcmc", .method "simpson"] = ⟨.phAbs, "wilm", "bcmc", .simpson⟩) := by
  exact ⟨rfl, _, rfl, rfl⟩

example := C76_band_current (.fin 1) (.fin 10) none none ⟨⟨.fin 1, .fin 10, 1000, true⟩, none, none, []⟩ rfl [.emin (.fin 20), .emax (.fin 30), .eval]
example := C76_band_last_accepted ⟨⟨.fin 1, .fin 10, 1000, true⟩, none, none, []⟩ [.emin (.fin 20), .emax (.fin 30), .eval] rfl
example := C76_obtained_kept ⟨⟨.fin 1, .fin 10, 1000, true⟩, none, none, []⟩ [.emin (.fin 20), .emax (.fin 30), .eval] rfl
example := C76_any_band_selectable ⟨⟨.fin 1, .fin 10, 1000, true⟩, none, none, []⟩ 1 10 20 30 rfl rfl (by norm_num) (by norm_num)
example := C76_band_ordered_partial 1 10 none none ⟨⟨.fin 1, .fin 10, 1000, true⟩, none, none, []⟩ rfl [.emax (.fin 30), .emin (.fin 20)]
  ⟨by intro v hv; simp at hv; subst hv; exact ⟨_, rfl⟩, by intro v hv; simp at hv; subst hv; exact ⟨_, rfl⟩⟩

end Elisa.Models.Settings
