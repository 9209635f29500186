import Verif.Models.Slot
import Verif.Models.ParamProps
import Verif.Models.TrackerProps

/-!
# C87: what a parameter slot holds after an assignment
-/

namespace Elisa.Models.Slot

open Elisa.Models Elisa.Models.Track

/-! ## Specification -/

/-- The values a parameter is asked to have. -/
structure Ask where
  default : Val
  min : Val
  max : Val
  log : Bool
  fixed : Bool
deriving DecidableEq

/-- The truth of a value used as a flag: `None` and zero are false, every other number (NaN too) is true, other objects have their own. -/
inductive TruthOf : Item → Bool → Prop where
  | zero : TruthOf (.num (.fin 0)) false
  | number (v : Val) (h : v ≠ .fin 0) : TruthOf (.num v) true
  | none : TruthOf .none false
  | junk (b : Bool) : TruthOf (.junk b) b

/-- The flag an optional key of a mapping stands for: absent means false. -/
def Flag (m : List (String × Item)) (key : String) (b : Bool) : Prop :=
  (m.lookup key = none ∧ b = false) ∨ ∃ x, m.lookup key = some x ∧ TruthOf x b

/-- What an assignment of a value asks for, according to the documentation of the setter. -/
inductive Asks (cfg : Config) : Given → Ask → Prop where
  /-- nothing given: the declared parameter -/
  | declared : Asks cfg .none ⟨cfg.default, cfg.min, cfg.max, cfg.log, cfg.fixed⟩
  /-- a number: the parameter is fixed to it -/
  | number (v : Val) : Asks cfg (.number v) ⟨v, cfg.min, cfg.max, cfg.log, true⟩
  /-- a mapping states everything; the optional flags default to false -/
  | mapping (m : List (String × Item)) (d lo hi : Val) (log fixed : Bool) (hd : m.lookup "default" = some (.num d))
      (hlo : m.lookup "min" = some (.num lo)) (hhi : m.lookup "max" = some (.num hi)) (hl : Flag m "log" log)
      (hf : Flag m "fixed" fixed) : Asks cfg (.mapping m) ⟨d, lo, hi, log, fixed⟩
  | seq1 (d : Val) : Asks cfg (.seq [.num d]) ⟨d, cfg.min, cfg.max, cfg.log, cfg.fixed⟩
  | seq3 (d lo hi : Val) : Asks cfg (.seq [.num d, .num lo, .num hi]) ⟨d, lo, hi, cfg.log, cfg.fixed⟩
  | seq4 (d lo hi : Val) (log : Item) (b : Bool) (hl : TruthOf log b) :
      Asks cfg (.seq [.num d, .num lo, .num hi, log]) ⟨d, lo, hi, b, cfg.fixed⟩

/-- `min < max`, `min ≤ default ≤ max`, and a positive lower bound on a logarithmic scale; NaN is in no relation to anything. -/
def Ask.Valid (a : Ask) : Prop :=
  Val.lt a.min a.max = true ∧ Val.le a.min a.default = true ∧ Val.le a.default a.max = true ∧
    (a.log = true → Val.lt (.fin 0) a.min = true)

/-- The parameter asked for: bounds, scale and flag as asked, the prior uniform (log-uniform) over the bounds, and the default as asked
unless the parameter is free and the default lies on a bound; it then starts strictly inside, in exact arithmetic at most `1e-10` of the
width away. -/
def Ask.Made (rnd : ℚ → ℚ) (a : Ask) (u : UParam) : Prop :=
  u.min = a.min ∧ u.max = a.max ∧ u.log = a.log ∧ u.fixed = a.fixed ∧ u.prior = ⟨a.log, a.min, a.max⟩ ∧
    (a.fixed = true ∨ (Val.lt a.min a.default = true ∧ Val.lt a.default a.max = true) → u.default = a.default) ∧
    (∀ d lo hi : ℚ, a.default = .fin d → a.min = .fin lo → a.max = .fin hi → a.fixed = false → NudgeFits rnd →
      StrictlyInside u ∧ (rnd = id → ∃ d' : ℚ, u.default = .fin d' ∧ |d' - d| ≤ (hi - lo) / 10 ^ 10))

/-- What a program can do: create and drop components, create parameters of its own, assign to slots; exceptions are caught.  An address is
never given to two components (the list records the addresses used), a new parameter object is at an identity not in use. -/
inductive Reach (rnd : ℚ → ℚ) : World → List Cid → Prop where
  | init : Reach rnd ⟨.init, fun _ => none⟩ []
  | component {w used} (c : Cid) : Reach rnd w used → c ∉ used →
      Reach rnd ⟨{ w.heap with live := fun x => x = c ∨ w.heap.live x, slot := Function.update w.heap.slot c (fun _ => none) }, w.obj⟩
        (used ++ [c])
  | drop {w used} (c : Cid) : Reach rnd w used → w.heap.live c →
      Reach rnd ⟨{ w.heap with live := fun x => x ≠ c ∧ w.heap.live x }, w.obj⟩ used
  | parameter {w used} (p : Pid) (o : Obj) : Reach rnd w used → w.obj p = none →
      Reach rnd ⟨{ w.heap with hist := Function.update w.heap.hist p [] }, Function.update w.obj p (some o)⟩ used
  | assign {w used} (c : Cid) (cfg : Config) (fresh : Pid) (g : Given) : Reach rnd w used → w.heap.live c → w.obj fresh = none →
      (∀ p, g = .param p → ∃ o, w.obj p = some o) → Reach rnd (setSlot rnd w c cfg fresh g).1 used

/-! ## Lemmas -/

theorem le_ne_nan {a b : Val} (h : Val.le a b = true) : a ≠ .nan ∧ b ≠ .nan := by
  cases a <;> cases b <;> simp_all [Val.le, Val.lt, Val.eq]

theorem le_false_iff {a b : Val} (ha : a ≠ .nan) (hb : b ≠ .nan) : Val.le b a = false ↔ Val.lt a b = true := by
  cases a <;> cases b <;> first | (simp_all [Val.le, Val.lt, Val.eq]; done) | skip
  simp only [le_fin, lt_fin, decide_eq_false_iff_not, decide_eq_true_eq, not_le]

theorem lt_of_le_false {a b : Val} (h : Val.le a b = true) : Val.lt b a = false := by
  cases a <;> cases b <;> first | (simp_all [Val.le, Val.lt, Val.eq]; done) | skip
  simpa only [le_fin, lt_fin, decide_eq_false_iff_not, decide_eq_true_eq, not_lt] using h

theorem lt_ne {a b : Val} (h : Val.lt a b = true) : Val.eq a b = false ∧ Val.eq b a = false := by
  cases a <;> cases b <;> first | (simp_all [Val.lt, Val.eq]; done) | skip
  simp only [lt_fin, eq_fin, decide_eq_true_eq, decide_eq_false_iff_not] at h ⊢
  exact ⟨h.ne, h.ne'⟩

/-- `rangeError` and the support check together are the validity of what is asked. -/
theorem valid_iff (a : Ask) :
    (rangeError a.log a.default a.min a.max = none ∧ (Prior.contains ⟨a.log, a.min, a.max⟩ a.default) = true) ↔ a.Valid := by
  constructor
  · rintro ⟨h1, h2⟩
    simp only [Prior.contains, Bool.and_eq_true] at h2
    obtain ⟨l, u⟩ := h2
    have n1 := le_ne_nan l
    have n2 := le_ne_nan u
    simp only [rangeError] at h1
    split_ifs at h1 with g1 g2 g3 g4
    refine ⟨(le_false_iff n1.1 n2.2).1 (by simpa using g2), l, u, fun hl => ?_⟩
    refine (le_false_iff (by simp) n1.1).1 ?_
    simpa [hl] using g1
  · rintro ⟨h1, l, u, h4⟩
    have n1 := le_ne_nan l
    have n2 := le_ne_nan u
    refine ⟨?_, by simp [Prior.contains, l, u]⟩
    have g2 := (le_false_iff n1.1 n2.2).2 h1
    simp only [rangeError, g2, lt_of_le_false l, lt_of_le_false u, Bool.false_eq_true, if_false]
    cases hl : a.log with
    | false => simp
    | true => simp [(le_false_iff (a := .fin 0) (by simp) n1.1).2 (h4 hl)]

theorem free_start (rnd : ℚ → ℚ) (hr : NudgeFits rnd) (d lo hi : ℚ) (log : Bool) (u : UParam)
    (hv : (Ask.mk (.fin d) (.fin lo) (.fin hi) log false).Valid)
    (h : UParam.create rnd (.fin d) (.fin lo) (.fin hi) log false = .ok u) :
    StrictlyInside u ∧ (rnd = id → ∃ d' : ℚ, u.default = .fin d' ∧ |d' - d| ≤ (hi - lo) / 10 ^ 10) := by
  have h1 := create_ok hr ⟨d, rfl⟩ ⟨lo, rfl⟩ ⟨hi, rfl⟩ h
  refine ⟨h1.2.1.1 h1.2.2.1, ?_⟩
  rintro rfl
  obtain ⟨k1, k2⟩ := (valid_iff _).2 hv
  simp only [UParam.create, k1, k2, UParam.checkAndSet, Option.getD_some, Option.getD_none] at h
  simp at h
  obtain ⟨v1, v2, v3, -⟩ := hv
  simp only [lt_fin, le_fin, decide_eq_true_eq] at v1 v2 v3
  subst h
  simp only [nudge, nudgeLo, nudgeHi]
  have hpos : (0 : ℚ) ≤ (hi - lo) / 10 ^ 10 := div_nonneg (by linarith) (by norm_num)
  by_cases e1 : d = lo
  · subst e1
    have hne : ¬ (d + eps * (hi + -d) = hi) := by simp only [eps]; intro he; linarith
    refine ⟨d + eps * (hi + -d), by simp [Val.sub, Val.add, Val.neg, Val.smulPos, hne], ?_⟩
    rw [abs_of_nonneg] <;> simp only [eps] <;> linarith
  · by_cases e2 : d = hi
    · subst e2
      refine ⟨d + -(eps * (d + -lo)), by simp [e1, Val.sub, Val.add, Val.neg, Val.smulPos], ?_⟩
      rw [abs_of_nonpos] <;> simp only [eps] <;> linarith
    · exact ⟨d, by simp [e1, e2], by simpa using hpos⟩

theorem uparam_create (rnd : ℚ → ℚ) (a : Ask) :
    (a.Valid → ∃ u, UParam.create rnd a.default a.min a.max a.log a.fixed = .ok u ∧ a.Made rnd u) ∧
    (¬ a.Valid → ∃ e, UParam.create rnd a.default a.min a.max a.log a.fixed = .error e) := by
  constructor
  · intro hv
    obtain ⟨h1, h2⟩ := (valid_iff a).2 hv
    refine ⟨⟨nudge rnd a.fixed a.default a.min a.max, a.min, a.max, a.log, a.fixed, ⟨a.log, a.min, a.max⟩⟩, ?_, rfl, rfl, rfl, rfl, rfl, ?_, ?_⟩
    · simp [UParam.create, h1, h2, UParam.checkAndSet]
    · rintro (hf | ⟨hl, hu⟩)
      · simp [nudge, nudgeLo, nudgeHi, hf]
      · simp [nudge, nudgeLo, nudgeHi, (lt_ne hl).2, (lt_ne hu).1]
    · intro d lo hi hd hlo hhi hfx hr
      obtain ⟨ad, al, ah, alog, afx⟩ := a
      simp only at hd hlo hhi hfx
      subst hd; subst hlo; subst hhi; subst hfx
      exact free_start rnd hr d lo hi alog _ hv (by simp only at h1 h2; simp [UParam.create, h1, h2, UParam.checkAndSet])
  · intro hv
    rw [← valid_iff] at hv
    rw [UParam.create]
    cases h : rangeError a.log a.default a.min a.max with
    | some e => exact ⟨e, rfl⟩
    | none =>
      have h2 : (Prior.contains ⟨a.log, a.min, a.max⟩ a.default) = false := by
        by_contra h3
        exact hv ⟨h, by simpa using h3⟩
      exact ⟨.support, by simp [h2]⟩

/-- The constructor succeeds exactly when the arguments are numbers asking for something valid, and then makes it. -/
theorem create_spec (rnd : ℚ → ℚ) (d lo hi : Item) (log fixed : Bool) :
    (∀ u, create rnd d lo hi log fixed = .ok u →
      ∃ x y z, d = .num x ∧ lo = .num y ∧ hi = .num z ∧ (Ask.mk x y z log fixed).Valid ∧ (Ask.mk x y z log fixed).Made rnd u) ∧
    (∀ x y z, d = .num x → lo = .num y → hi = .num z → (Ask.mk x y z log fixed).Valid →
      ∃ u, create rnd d lo hi log fixed = .ok u) := by
  constructor
  · intro u hu
    cases d <;> cases lo <;> cases hi <;> simp only [create, Item.float, bind, Except.bind, reduceCtorEq] at hu
    rename_i d lo hi
    obtain ⟨hv1, hv2⟩ := uparam_create rnd ⟨d, lo, hi, log, fixed⟩
    by_cases hv : (Ask.mk d lo hi log fixed).Valid
    · obtain ⟨u', e, m⟩ := hv1 hv
      simp only at e
      rw [e] at hu
      cases hu
      exact ⟨d, lo, hi, rfl, rfl, rfl, hv, m⟩
    · obtain ⟨e', e⟩ := hv2 hv
      simp only at e
      rw [e] at hu
      cases hu
  · rintro d lo hi rfl rfl rfl hv
    obtain ⟨u, e, -⟩ := (uparam_create rnd ⟨d, lo, hi, log, fixed⟩).1 hv
    simp only at e
    exact ⟨u, by simp [create, Item.float, bind, Except.bind, e]⟩

theorem truthOf_iff (x : Item) (b : Bool) : TruthOf x b ↔ x.truth = b := by
  constructor
  · intro h
    cases h with
    | zero => simp [Item.truth, Val.eq]
    | number v h => cases v <;> simp_all [Item.truth, Val.eq]
    | none => rfl
    | junk => rfl
  · rintro rfl
    cases x with
    | num v =>
      by_cases h : v = .fin 0
      · subst h; simpa [Item.truth, Val.eq] using TruthOf.zero
      · have : (Item.num v).truth = true := by cases v <;> simp_all [Item.truth, Val.eq]
        rw [this]
        exact .number v h
    | none => exact .none
    | junk b => exact .junk b

theorem flag_iff (m : List (String × Item)) (key : String) (b : Bool) :
    Flag m key b ↔ (m.lookup key).elim false Item.truth = b := by
  cases h : m.lookup key <;> simp [Flag, h, eq_comm, truthOf_iff]

theorem convert_spec (rnd : ℚ → ℚ) (cfg : Config) (g : Given) :
    (∀ u, convert rnd cfg g = .ok u → ∃ a, Asks cfg g a ∧ a.Valid ∧ a.Made rnd u) ∧
    (∀ a, Asks cfg g a → a.Valid → ∃ u, convert rnd cfg g = .ok u) := by
  constructor
  · intro u hu
    cases g with
    | none =>
      obtain ⟨d, lo, hi, e1, e2, e3, hv, hm⟩ := (create_spec ..).1 u hu
      cases e1; cases e2; cases e3
      exact ⟨_, .declared, hv, hm⟩
    | number v =>
      obtain ⟨d, lo, hi, e1, e2, e3, hv, hm⟩ := (create_spec ..).1 u hu
      cases e1; cases e2; cases e3
      exact ⟨_, .number v, hv, hm⟩
    | array => cases hu
    | param p => cases hu
    | other => cases hu
    | mapping m =>
      simp only [convert, fromMapping] at hu
      split at hu
      · rename_i d lo hi h1 h2 h3
        obtain ⟨d, lo, hi, rfl, rfl, rfl, hv, hm⟩ := (create_spec ..).1 u hu
        exact ⟨_, .mapping m d lo hi _ _ h1 h2 h3 ((flag_iff ..).2 rfl) ((flag_iff ..).2 rfl), hv, hm⟩
      · cases hu
    | seq l =>
      simp only [convert, fromSeq] at hu
      split at hu
      · obtain ⟨d, lo, hi, rfl, e2, e3, hv, hm⟩ := (create_spec ..).1 u hu
        cases e2; cases e3
        exact ⟨_, .seq1 d, hv, hm⟩
      · obtain ⟨d, lo, hi, rfl, rfl, rfl, hv, hm⟩ := (create_spec ..).1 u hu
        exact ⟨_, .seq3 d lo hi, hv, hm⟩
      · obtain ⟨d, lo, hi, rfl, rfl, rfl, hv, hm⟩ := (create_spec ..).1 u hu
        exact ⟨_, .seq4 d lo hi _ _ ((truthOf_iff ..).2 rfl), hv, hm⟩
      · cases hu
  · intro a ha hv
    cases ha with
    | declared => exact (create_spec ..).2 _ _ _ rfl rfl rfl hv
    | number v => exact (create_spec ..).2 _ _ _ rfl rfl rfl hv
    | mapping m d lo hi log fixed hd hlo hhi hl hf =>
      rw [flag_iff] at hl hf
      subst hl; subst hf
      simp only [convert, fromMapping, hd, hlo, hhi]
      exact (create_spec ..).2 _ _ _ rfl rfl rfl hv
    | seq1 d => exact (create_spec ..).2 _ _ _ rfl rfl rfl hv
    | seq3 d lo hi => exact (create_spec ..).2 _ _ _ rfl rfl rfl hv
    | seq4 d lo hi l b hl =>
      rw [truthOf_iff] at hl
      subst hl
      exact (create_spec ..).2 _ _ _ rfl rfl rfl hv

theorem assign_some {h : Heap} {used} (hi : Inv h used) {c : Cid} (hc : h.live c) (n : PName) (p : Pid) :
    ∃ h', Track.assign h c n p = some h' ∧ h'.slot c n = some p ∧ (∀ c' n', (c', n') ≠ (c, n) → h'.slot c' n' = h.slot c' n') ∧
      h'.live = h.live := by
  obtain ⟨hist, hd, -⟩ := dropPrev_spec hi hc n
  unfold Track.assign
  split
  · exact ⟨_, rfl, by assumption, fun _ _ _ => rfl, rfl⟩
  · rw [hd]
    refine ⟨_, rfl, by simp, fun c' n' hne => ?_, rfl⟩
    by_cases hcc : c' = c
    · subst hcc
      have hnn : n' ≠ n := fun e => hne (by rw [e])
      simp [Function.update_of_ne hnn]
    · simp [Function.update_of_ne hcc]

/-- The invariant of reachable worlds: the bookkeeping is consistent and slots hold existing objects. -/
structure WInv (w : World) (used : List Cid) : Prop where
  heap : Inv w.heap used
  objs : ∀ c n p, w.heap.live c → w.heap.slot c n = some p → ∃ o, w.obj p = some o

theorem newParam_inv {h : Heap} {used} (hi : Inv h used) {p : Pid} (hp : ∀ c n, h.live c → h.slot c n ≠ some p) :
    Inv { h with hist := Function.update h.hist p [] } used := by
  have := inv_step hi (Step.newParam hp) (by intro c h; cases h)
  simpa [allocs] using this

/-- The effect of an assignment in a consistent world. -/
theorem setSlot_spec (rnd : ℚ → ℚ) {w : World} {used} (hw : WInv w used) {c : Cid} (hc : w.heap.live c) (cfg : Config) {fresh : Pid}
    (hf : w.obj fresh = none) (g : Given) (hg : ∀ p, g = .param p → ∃ o, w.obj p = some o) :
    WInv (setSlot rnd w c cfg fresh g).1 used ∧
    ((∃ e, setSlot rnd w c cfg fresh g = (w, some e) ∧ (∀ p, g ≠ .param p) ∧ ∀ a, Asks cfg g a → ¬ a.Valid) ∨
     (∃ w' p, setSlot rnd w c cfg fresh g = (w', none) ∧ w'.heap.slot c cfg.name = some p ∧
      (∀ c' n', (c', n') ≠ (c, cfg.name) → w'.heap.slot c' n' = w.heap.slot c' n') ∧ w'.heap.live = w.heap.live ∧
      (∀ q, q ≠ p → w'.obj q = w.obj q) ∧
      ((g = .param p ∧ ∃ o o', w.obj p = some o ∧ w'.obj p = some o' ∧ o'.uniform = o.uniform ∧
          ((w.heap.slot c cfg.name = some p ∧ o'.latex = o.latex) ∨ (w.heap.slot c cfg.name ≠ some p ∧ o'.latex = cfg.latex))) ∨
       (p = fresh ∧ ∃ a u, Asks cfg g a ∧ a.Valid ∧ a.Made rnd u ∧ w'.obj p = some ⟨some u, cfg.latex⟩)))) := by
  have hnew : (∀ p, g ≠ .param p) → setSlot rnd w c cfg fresh g = (match convert rnd cfg g with
      | .error e => (w, some e)
      | .ok u => store ⟨{ w.heap with hist := Function.update w.heap.hist fresh [] }, w.obj⟩ c cfg.name fresh
        (Function.update w.obj fresh (some ⟨some u, cfg.latex⟩))) := by
    intro h
    cases g <;> first | rfl | exact absurd rfl (h _)
  by_cases hp : ∃ p, g = .param p
  · obtain ⟨p, rfl⟩ := hp
    obtain ⟨o, ho⟩ := hg p rfl
    by_cases hs : w.heap.slot c cfg.name = some p
    · simp only [setSlot, hs, if_true]
      exact ⟨hw, .inr ⟨w, p, rfl, hs, fun _ _ _ => rfl, rfl, fun _ _ => rfl, .inl ⟨rfl, o, o, ho, ho, rfl, .inl ⟨rfl, rfl⟩⟩⟩⟩
    · obtain ⟨h', ha, hslot, hoth, hlive⟩ := assign_some hw.heap hc cfg.name p
      simp only [setSlot, hs, if_false, store, ha]
      have hobj : ∀ q, q ≠ p → relabel w.obj p cfg.latex q = w.obj q := fun q hq => by simp [relabel, Function.update_of_ne hq]
      have hobjp : relabel w.obj p cfg.latex p = some { o with latex := cfg.latex } := by simp [relabel, ho]
      refine ⟨⟨inv_assign hw.heap hc ha, ?_⟩, .inr ⟨_, p, rfl, hslot, hoth, hlive, hobj, .inl ⟨rfl, o, _, ho, hobjp, rfl, .inr ⟨hs, rfl⟩⟩⟩⟩
      intro c' n' q hl hq
      simp only at hl hq ⊢
      by_cases hqp : q = p
      · subst hqp; exact ⟨_, hobjp⟩
      · rw [hobj q hqp]
        refine hw.objs c' n' q (by rw [← hlive]; exact hl) ?_
        rw [← hoth c' n' ?_]
        · exact hq
        · rintro ⟨rfl, rfl⟩
          rw [hslot] at hq
          exact hqp (Option.some.inj hq).symm
  · rw [not_exists] at hp
    rw [hnew hp]
    cases hcv : convert rnd cfg g with
    | error e =>
      refine ⟨hw, .inl ⟨e, rfl, hp, fun a ha hv => ?_⟩⟩
      obtain ⟨u, hu⟩ := (convert_spec rnd cfg g).2 a ha hv
      rw [hcv] at hu
      cases hu
    | ok u =>
      obtain ⟨a, ha, hv, hm⟩ := (convert_spec rnd cfg g).1 u hcv
      have hfr : ∀ c n, w.heap.live c → w.heap.slot c n ≠ some fresh := by
        intro c n hl hsl
        obtain ⟨o, ho⟩ := hw.objs c n fresh hl hsl
        rw [hf] at ho
        cases ho
      have hi' := newParam_inv hw.heap hfr
      obtain ⟨h', hass, hslot, hoth, hlive⟩ := assign_some hi' hc cfg.name fresh
      simp only [store, hass]
      have hobj : ∀ q, q ≠ fresh → Function.update w.obj fresh (some (⟨some u, cfg.latex⟩ : Obj)) q = w.obj q :=
        fun q hq => by simp [Function.update_of_ne hq]
      refine ⟨⟨inv_assign hi' hc hass, ?_⟩, .inr ⟨_, fresh, rfl, hslot, hoth, hlive, hobj, .inr ⟨rfl, a, u, ha, hv, hm, by simp⟩⟩⟩
      intro c' n' q hl hq
      simp only at hl hq ⊢
      by_cases hqp : q = fresh
      · subst hqp; exact ⟨⟨some u, cfg.latex⟩, by simp⟩
      · rw [hobj q hqp]
        refine hw.objs c' n' q (by rw [hlive] at hl; exact hl) ?_
        rw [← hoth c' n' ?_]
        · exact hq
        · rintro ⟨rfl, rfl⟩
          rw [hslot] at hq
          exact hqp (Option.some.inj hq).symm

theorem reach_inv {rnd : ℚ → ℚ} {w : World} {used : List Cid} (h : Reach rnd w used) : WInv w used := by
  induction h with
  | init => exact ⟨inv_init, by simp [Heap.init]⟩
  | component c hr hc ih =>
    rename_i w used
    have hnl : ¬ w.heap.live c := fun hl => hc (ih.heap.live_used c hl)
    have h1 := inv_step ih.heap (Step.alloc hnl) (by intro c' h'; cases h'; exact hc)
    refine ⟨by simpa [allocs] using h1, ?_⟩
    intro c' n p hl hs
    simp only at hl hs ⊢
    by_cases hcc : c' = c
    · subst hcc; simp at hs
    · rw [Function.update_of_ne hcc] at hs
      exact ih.objs c' n p (hl.resolve_left hcc) hs
  | drop c hr hc ih =>
    have h1 := inv_step ih.heap (Step.free hc) (by intro c' h'; cases h')
    exact ⟨by simpa [allocs] using h1, fun c' n p hl hs => ih.objs c' n p hl.2 hs⟩
  | parameter p o hr hp ih =>
    rename_i w used
    refine ⟨newParam_inv ih.heap ?_, ?_⟩
    · intro c n hl hs
      obtain ⟨o, ho⟩ := ih.objs c n p hl hs
      rw [hp] at ho
      cases ho
    · intro c n q hl hs
      by_cases hq : q = p
      · subst hq; exact ⟨o, by simp⟩
      · simpa [Function.update_of_ne hq] using ih.objs c n q hl hs
  | assign c cfg fresh g hr hc hf hg ih => exact (setSlot_spec rnd ih hc cfg hf g hg).1

/-! ## C87 -/

/-- **C87.** In every reachable world, an assignment to a slot of a component either raises and changes nothing at all, or leaves the slot
holding one parameter, every other slot of every component holding what it held, and every other parameter object as it was.  The slot then
holds the very object given, with its value, bounds, scale and prior unchanged, or a new parameter with the values asked for. -/
theorem C87_assign (rnd : ℚ → ℚ) (w : World) (used : List Cid) (h : Reach rnd w used) (c : Cid) (hc : w.heap.live c) (cfg : Config)
    (fresh : Pid) (hf : w.obj fresh = none) (g : Given) (hg : ∀ p, g = .param p → ∃ o, w.obj p = some o) :
    (∃ e, setSlot rnd w c cfg fresh g = (w, some e)) ∨
    ∃ w' p, setSlot rnd w c cfg fresh g = (w', none) ∧ w'.heap.slot c cfg.name = some p ∧
      (∀ c' n', (c', n') ≠ (c, cfg.name) → w'.heap.slot c' n' = w.heap.slot c' n') ∧
      (∀ q, q ≠ p → w'.obj q = w.obj q) ∧
      ((g = .param p ∧ ∃ o o', w.obj p = some o ∧ w'.obj p = some o' ∧ o'.uniform = o.uniform) ∨
       (p = fresh ∧ ∃ a u, Asks cfg g a ∧ a.Made rnd u ∧ w'.obj p = some ⟨some u, cfg.latex⟩)) := by
  rcases (setSlot_spec rnd (reach_inv h) hc cfg hf g hg).2 with ⟨e, h1, -⟩ | ⟨w', p, h1, h2, h3, -, h4, h5⟩
  · exact .inl ⟨e, h1⟩
  · refine .inr ⟨w', p, h1, h2, h3, h4, ?_⟩
    rcases h5 with ⟨h6, o, o', h7, h8, h9, -⟩ | ⟨h6, a, u, h7, -, h8, h9⟩
    · exact .inl ⟨h6, o, o', h7, h8, h9⟩
    · exact .inr ⟨h6, a, u, h7, h8, h9⟩

/-- **C87.** An assignment is accepted exactly when a parameter object is given or what is asked for is valid: `min < max`,
`min ≤ default ≤ max`, and a positive lower bound on a logarithmic scale. -/
theorem C87_accepted (rnd : ℚ → ℚ) (w : World) (used : List Cid) (h : Reach rnd w used) (c : Cid) (hc : w.heap.live c) (cfg : Config)
    (fresh : Pid) (hf : w.obj fresh = none) (g : Given) (hg : ∀ p, g = .param p → ∃ o, w.obj p = some o) :
    (setSlot rnd w c cfg fresh g).2 = none ↔ (∃ p, g = .param p) ∨ ∃ a, Asks cfg g a ∧ a.Valid := by
  rcases (setSlot_spec rnd (reach_inv h) hc cfg hf g hg).2 with ⟨e, h1, h2, h3⟩ | ⟨w', p, h1, -, -, -, -, h5⟩
  · rw [h1]
    simp only [reduceCtorEq, false_iff, not_or, not_exists, not_and]
    exact ⟨h2, h3⟩
  · rw [h1]
    simp only [true_iff]
    rcases h5 with ⟨h6, -⟩ | ⟨-, a, u, h7, h8, -⟩
    · exact .inl ⟨p, h6⟩
    · exact .inr ⟨a, h7, h8⟩

/-- **C87.** Assigning an ordinary number to a parameter declared with ordinary bounds `lo < hi` (positive on a logarithmic scale): accepted
exactly when the number lies within the declared bounds, and then the parameter is fixed at exactly this number, whatever the rounding. -/
theorem C87_number (rnd : ℚ → ℚ) (w : World) (used : List Cid) (h : Reach rnd w used) (c : Cid) (hc : w.heap.live c) (cfg : Config)
    (fresh : Pid) (hf : w.obj fresh = none) (lo hi v : ℚ) (hlo : cfg.min = .fin lo) (hhi : cfg.max = .fin hi) (hlt : lo < hi)
    (hlog : cfg.log = true → 0 < lo) :
    ((setSlot rnd w c cfg fresh (.number (.fin v))).2 = none ↔ lo ≤ v ∧ v ≤ hi) ∧
    ((setSlot rnd w c cfg fresh (.number (.fin v))).2 = none →
      (setSlot rnd w c cfg fresh (.number (.fin v))).1.heap.slot c cfg.name = some fresh ∧
      ∃ u, (setSlot rnd w c cfg fresh (.number (.fin v))).1.obj fresh = some ⟨some u, cfg.latex⟩ ∧
        u.fixed = true ∧ u.default = .fin v) := by
  have hg : ∀ p, Given.number (.fin v) = .param p → ∃ o, w.obj p = some o := by intro p hp; cases hp
  constructor
  · rw [C87_accepted rnd w used h c hc cfg fresh hf _ hg]
    constructor
    · rintro (⟨p, hp⟩ | ⟨a, ha, -, h2, h3, -⟩)
      · cases hp
      · cases ha
        simp only [hlo, hhi, le_fin, decide_eq_true_eq] at h2 h3
        exact ⟨h2, h3⟩
    · rintro ⟨h1, h2⟩
      refine .inr ⟨_, .number _, ?_⟩
      simp only [Ask.Valid, hlo, hhi, lt_fin, le_fin, decide_eq_true_eq]
      exact ⟨hlt, h1, h2, hlog⟩
  · intro hok
    rcases (setSlot_spec rnd (reach_inv h) hc cfg hf _ hg).2 with ⟨e, h1, -⟩ | ⟨w', p, h1, h2, -, -, -, h5⟩
    · rw [h1] at hok; cases hok
    · rw [h1]
      rcases h5 with ⟨h6, -⟩ | ⟨rfl, a, u, h7, -, h8, h9⟩
      · cases h6
      · cases h7
        exact ⟨h2, u, h9, h8.2.2.2.1, h8.2.2.2.2.2.1 (.inl rfl)⟩

/-- The error a list of values that must be numbers ends with: that of the first one that is none. -/
inductive FirstBad : List Item → SErr → Prop where
  | missing (pre : List Val) (l : List Item) : FirstBad (pre.map .num ++ .none :: l) .missing
  | conversion (pre : List Val) (b : Bool) (l : List Item) : FirstBad (pre.map .num ++ .junk b :: l) .conversion

/-- The error of a refused value: an array, a wrong length and missing keys are `ValueError`s of their own, something that is no value at all
a `TypeError`; otherwise the first of default, lower and upper bound that is no number decides, and numbers that are not valid are
refused by the range checks. -/
inductive Refusal : Given → SErr → Prop where
  | array : Refusal .array .shape
  | other : Refusal .other .type
  | length (l : List Item) (h : l.length ≠ 1 ∧ l.length ≠ 3 ∧ l.length ≠ 4) : Refusal (.seq l) .length
  | keys (m : List (String × Item)) (k : String) (hk : k = "default" ∨ k = "min" ∨ k = "max") (h : m.lookup k = none) :
      Refusal (.mapping m) .keys
  | mapping (m : List (String × Item)) (d lo hi : Item) (e : SErr) (hd : m.lookup "default" = some d) (hlo : m.lookup "min" = some lo)
      (hhi : m.lookup "max" = some hi) (h : FirstBad [d, lo, hi] e) : Refusal (.mapping m) e
  | seq (l : List Item) (e : SErr) (hl : l.length = 1 ∨ l.length = 3 ∨ l.length = 4) (h : FirstBad (l.take 3) e) : Refusal (.seq l) e

theorem create_error (rnd : ℚ → ℚ) (d lo hi : Item) (log fixed : Bool) (e : SErr) (h : create rnd d lo hi log fixed = .error e) :
    FirstBad [d, lo, hi] e ∨ ∃ x y z r, d = .num x ∧ lo = .num y ∧ hi = .num z ∧ e = .range r := by
  have m0 := FirstBad.missing []
  have c0 := FirstBad.conversion []
  cases d with
  | none => cases h; exact .inl (m0 _)
  | junk b => cases h; exact .inl (c0 b _)
  | num x =>
    cases lo with
    | none => cases h; exact .inl (.missing [x] _)
    | junk b => cases h; exact .inl (.conversion [x] b _)
    | num y =>
      cases hi with
      | none => cases h; exact .inl (.missing [x, y] _)
      | junk b => cases h; exact .inl (.conversion [x, y] b _)
      | num z =>
        right
        simp only [create, Item.float, bind, Except.bind] at h
        split at h
        · cases h
        · cases h
          exact ⟨x, y, z, _, rfl, rfl, rfl, rfl⟩

/-- **C87.** The error of a refused assignment tells what is wrong: the shape, type, length, keys or the first entry that is no number, and
otherwise the range check. -/
theorem C87_errors (rnd : ℚ → ℚ) (w : World) (c : Cid) (cfg : Config) (fresh : Pid) (g : Given) (hg : ∀ p, g ≠ .param p) (e : SErr)
    (he : convert rnd cfg g = .error e) :
    setSlot rnd w c cfg fresh g = (w, some e) ∧ (Refusal g e ∨ ∃ a r, Asks cfg g a ∧ ¬ a.Valid ∧ e = .range r) := by
  have h1 : setSlot rnd w c cfg fresh g = (w, some e) := by
    cases g <;> first | (simp only [setSlot, he]; done) | exact absurd rfl (hg _)
  refine ⟨h1, ?_⟩
  have inv : ∀ a, Asks cfg g a → ¬ a.Valid := by
    intro a ha hv
    obtain ⟨u, hu⟩ := (convert_spec rnd cfg g).2 a ha hv
    rw [he] at hu
    cases hu
  have num0 : ∀ (l : List Val) (e : SErr), ¬ FirstBad (l.map .num) e := by
    intro l e h
    generalize hq : l.map Item.num = q at h
    cases h with
    | missing pre t =>
      have : Item.none ∈ l.map Item.num := by rw [hq]; simp
      simp at this
    | conversion pre b t =>
      have : Item.junk b ∈ l.map Item.num := by rw [hq]; simp
      simp at this
  cases g with
  | none =>
    rcases create_error _ _ _ _ _ _ _ he with h | ⟨x, y, z, r, e1, e2, e3, rfl⟩
    · exact absurd h (num0 [_, _, _] _)
    · exact .inr ⟨_, r, .declared, inv _ .declared, rfl⟩
  | number v =>
    rcases create_error _ _ _ _ _ _ _ he with h | ⟨x, y, z, r, e1, e2, e3, rfl⟩
    · exact absurd h (num0 [_, _, _] _)
    · exact .inr ⟨_, r, .number v, inv _ (.number v), rfl⟩
  | array => cases he; exact .inl .array
  | other => cases he; exact .inl .other
  | param p => exact absurd rfl (hg p)
  | mapping m =>
    simp only [convert, fromMapping] at he
    split at he
    · rename_i d lo hi hd hlo hhi
      rcases create_error _ _ _ _ _ _ _ he with h | ⟨x, y, z, r, rfl, rfl, rfl, rfl⟩
      · exact .inl (.mapping m d lo hi e hd hlo hhi h)
      · have ha : Asks cfg (.mapping m) _ := .mapping m x y z _ _ hd hlo hhi ((flag_iff ..).2 rfl) ((flag_iff ..).2 rfl)
        exact .inr ⟨_, r, ha, inv _ ha, rfl⟩
    · rename_i hk
      cases he
      left
      cases h1 : m.lookup "default" with
      | none => exact .keys m _ (.inl rfl) h1
      | some d =>
        cases h2 : m.lookup "min" with
        | none => exact .keys m _ (.inr (.inl rfl)) h2
        | some lo =>
          cases h3 : m.lookup "max" with
          | none => exact .keys m _ (.inr (.inr rfl)) h3
          | some hi => exact absurd h3 (hk d lo hi h1 h2)
  | seq l =>
    simp only [convert, fromSeq] at he
    split at he
    · rename_i d
      rcases create_error _ _ _ _ _ _ _ he with h | ⟨x, y, z, r, rfl, -, -, rfl⟩
      · refine .inl (.seq _ _ (.inl rfl) ?_)
        simp only [List.take_succ_cons, List.take_nil]
        cases d with
        | num x => exact absurd h (num0 [_, _, _] _)
        | none => cases he; exact .missing [] []
        | junk b => cases he; exact .conversion [] b []
      · exact .inr ⟨_, r, .seq1 x, inv _ (.seq1 x), rfl⟩
    · rcases create_error _ _ _ _ _ _ _ he with h | ⟨x, y, z, r, rfl, rfl, rfl, rfl⟩
      · exact .inl (.seq _ _ (.inr (.inl rfl)) h)
      · exact .inr ⟨_, r, .seq3 x y z, inv _ (.seq3 x y z), rfl⟩
    · rename_i lg
      rcases create_error _ _ _ _ _ _ _ he with h | ⟨x, y, z, r, rfl, rfl, rfl, rfl⟩
      · exact .inl (.seq _ _ (.inr (.inr rfl)) h)
      · have ha : Asks cfg (.seq [.num x, .num y, .num z, lg]) _ := .seq4 x y z lg _ ((truthOf_iff ..).2 rfl)
        exact .inr ⟨_, r, ha, inv _ ha, rfl⟩
    · rename_i k1 h3 h4
      cases he
      refine .inl (.length l ⟨?_, ?_, ?_⟩)
      · intro hl
        obtain ⟨a, rfl⟩ := List.length_eq_one_iff.1 hl
        exact k1 a rfl
      · intro hl
        obtain ⟨a, b, d, rfl⟩ := List.length_eq_three.1 hl
        exact h3 a b d rfl
      · intro hl
        match l, hl with
        | [a, b, d, f], _ => exact h4 a b d f rfl

/-- **C87.** `component[name]` is the parameter in the slot for a declared name and an error for every other name; right after an
accepted assignment to the declared slot it is the parameter given, or the one made. -/
theorem C87_getitem (rnd : ℚ → ℚ) (w : World) (used : List Cid) (h : Reach rnd w used) (c : Cid) (hc : w.heap.live c) (cfgs : List Config)
    (cfg : Config) (hcfg : cfg ∈ cfgs) (fresh : Pid) (hf : w.obj fresh = none) (g : Given) (hg : ∀ p, g = .param p → ∃ o, w.obj p = some o)
    (hok : (setSlot rnd w c cfg fresh g).2 = none) :
    (∀ n, (∀ cfg' ∈ cfgs, cfg'.name ≠ n) → getItem (setSlot rnd w c cfg fresh g).1 cfgs c n = none) ∧
    (∀ p, g = .param p → getItem (setSlot rnd w c cfg fresh g).1 cfgs c cfg.name = some p) ∧
    ((∀ p, g ≠ .param p) → getItem (setSlot rnd w c cfg fresh g).1 cfgs c cfg.name = some fresh) ∧
    (∀ cfg' ∈ cfgs, cfg'.name ≠ cfg.name → getItem (setSlot rnd w c cfg fresh g).1 cfgs c cfg'.name = w.heap.slot c cfg'.name) := by
  have hm : ∀ cfg' ∈ cfgs, cfg'.name ∈ cfgs.map (·.name) := fun cfg' h' => List.mem_map.2 ⟨cfg', h', rfl⟩
  refine ⟨?_, ?_⟩
  · intro n hn
    rw [getItem, if_neg]
    rintro h'
    obtain ⟨cfg', h1, h2⟩ := List.mem_map.1 h'
    exact hn cfg' h1 h2
  · rcases (setSlot_spec rnd (reach_inv h) hc cfg hf g hg).2 with ⟨e, h1, -⟩ | ⟨w', p, h1, h2, h3, -, -, h5⟩
    · rw [h1] at hok; cases hok
    · rw [h1]
      simp only [getItem]
      refine ⟨?_, ?_, ?_⟩
      · rintro q rfl
        rw [if_pos (hm _ hcfg), h2]
        rcases h5 with ⟨h6, -⟩ | ⟨-, a, u, h7, -⟩
        · cases h6; rfl
        · cases h7
      · intro hq
        rw [if_pos (hm _ hcfg), h2]
        rcases h5 with ⟨h6, -⟩ | ⟨h6, -⟩
        · exact absurd h6 (hq p)
        · rw [h6]
      · intro cfg' h' hne
        rw [if_pos (hm _ h'), h3]
        intro he
        exact hne (Prod.mk.inj he).2

/-! ### Examples and refutations -/

/-- The amplitude of a power law: `1e-10 ≤ K ≤ 1e10`, logarithmic in this example. -/
def exCfg : Config := ⟨"K", "K", .fin 1, .fin (1 / 10), .fin 10, true, false⟩

/-- The photon index. -/
def exCfg2 : Config := ⟨"alpha", "\\alpha", .fin 1, .fin (-3), .fin 10, false, false⟩

/-- Two components, the second slot of the first set to its declaration (parameter 0). -/
def exWorld : World :=
  (setSlot id ⟨{ Heap.init with live := fun x => x = 2 ∨ x = 1 ∨ False, slot := Function.update (Function.update Heap.init.slot 1 (fun _ => none)) 2 (fun _ => none) },
    fun _ => none⟩ 1 exCfg2 0 .none).1

theorem exWorld_reach : Reach id exWorld [1, 2] :=
  .assign 1 exCfg2 0 .none (.component 2 (.component 1 .init (by simp)) (by simp)) (.inr (.inl rfl)) rfl (by intro p hp; cases hp)

theorem exWorld_live : exWorld.heap.live 1 ∧ exWorld.heap.live 2 := ⟨.inr (.inl rfl), .inl rfl⟩

theorem exWorld_slot : exWorld.heap.slot 1 "alpha" = some 0 := rfl

/-- The hypotheses of the theorems are met: the slot is set to `[2, 1, 5]` and the parameter made is logarithmic as declared. -/
example : ∃ w', setSlot id exWorld 2 exCfg 7 (.seq [.num (.fin 2), .num (.fin 1), .num (.fin 5)]) = (w', none) ∧
    w'.heap.slot 2 "K" = some 7 ∧ w'.heap.slot 1 "alpha" = some 0 := ⟨_, rfl, rfl, rfl⟩

example : (setSlot id exWorld 2 exCfg 7 (.number (.fin 10))).2 = none ∧ (setSlot id exWorld 2 exCfg 7 (.number (.fin 11))).2 ≠ none := by
  have hr := exWorld_reach
  have hc := exWorld_live.2
  have h1 := (C87_number id exWorld [1, 2] hr 2 hc exCfg 7 rfl (1 / 10) 10 10 rfl rfl (by norm_num) (by intro; norm_num)).1
  have h2 := (C87_number id exWorld [1, 2] hr 2 hc exCfg 7 rfl (1 / 10) 10 11 rfl rfl (by norm_num) (by intro; norm_num)).1
  refine ⟨h1.2 ⟨by norm_num, by norm_num⟩, fun h => ?_⟩
  have := h2.1 h
  norm_num at this

example : setSlot id exWorld 2 exCfg 7 (.seq [.num (.fin 2), .none, .junk true]) = (exWorld, some .missing) :=
  (C87_errors id exWorld 2 exCfg 7 _ (by intro p h; cases h) .missing rfl).1

example : getItem (setSlot id exWorld 2 exCfg 7 (.number (.fin 2))).1 [exCfg2, exCfg] 2 "K" = some 7 ∧
    getItem (setSlot id exWorld 2 exCfg 7 (.number (.fin 2))).1 [exCfg2, exCfg] 2 "kT" = none := by
  have h := C87_getitem id exWorld [1, 2] exWorld_reach 2 exWorld_live.2 [exCfg2, exCfg] exCfg (by simp) 7 rfl (.number (.fin 2))
    (by intro p h; cases h)
    ((C87_number id exWorld [1, 2] exWorld_reach 2 exWorld_live.2 exCfg 7 rfl (1 / 10) 10 2 rfl rfl (by norm_num) (by intro; norm_num)).1.2
      ⟨by norm_num, by norm_num⟩)
  exact ⟨h.2.2.1 (by intro p h; cases h), h.1 "kT" (by simp [exCfg2, exCfg])⟩

example : (Ask.mk (.fin 2) (.fin 1) (.fin 5) true false).Valid := by
  simp only [Ask.Valid, lt_fin, le_fin, decide_eq_true_eq]; norm_num

example : ¬ (Ask.mk .nan (.fin 1) (.fin 5) true false).Valid := by simp [Ask.Valid, Val.le, Val.lt, Val.eq]

/-- **C87 (refuted).** Linking two slots changes the label of the first: the parameter shown as `\alpha` in the first component, given to a
slot declared with the label `K`, is shown as `K` everywhere, though the first slot was not assigned. -/
theorem C87_label_refuted :
    ∃ (w : World) (used : List Cid) (w' : World), Reach id w used ∧ w.heap.live 2 ∧ setSlot id w 2 exCfg 7 (.param 0) = (w', none) ∧
      w.heap.slot 1 "alpha" = some 0 ∧ w'.heap.slot 1 "alpha" = some 0 ∧
      (w.obj 0).map (·.latex) = some "\\alpha" ∧ (w'.obj 0).map (·.latex) = some "K" :=
  ⟨exWorld, [1, 2], _, exWorld_reach, exWorld_live.2, rfl, rfl, rfl, rfl, rfl⟩

/-- **C87 (refuted).** The same three numbers given as a mapping and as a sequence make different parameters: a parameter declared on a
logarithmic scale becomes linear when a mapping leaves out `log`, and one declared fixed becomes free when it leaves out `fixed`. -/
theorem C87_mapping_refuted :
    ∃ (cfg : Config) (m : List (String × Item)) (l : List Item) (a b : Ask), cfg.log = true ∧ cfg.fixed = true ∧
      m = [("default", .num (.fin 2)), ("min", .num (.fin 1)), ("max", .num (.fin 5))] ∧ l = [.num (.fin 2), .num (.fin 1), .num (.fin 5)] ∧
      Asks cfg (.mapping m) a ∧ a.Valid ∧ Asks cfg (.seq l) b ∧ b.Valid ∧ a.log = false ∧ a.fixed = false ∧ b.log = true ∧ b.fixed = true := by
  refine ⟨{ exCfg with fixed := true }, _, _, ⟨.fin 2, .fin 1, .fin 5, false, false⟩, ⟨.fin 2, .fin 1, .fin 5, true, true⟩, rfl, rfl, rfl, rfl,
    .mapping _ _ _ _ _ _ (by rfl) (by rfl) (by rfl) (.inl ⟨by decide, rfl⟩) (.inl ⟨by decide, rfl⟩), ?_, .seq3 _ _ _, ?_, rfl, rfl, rfl, rfl⟩
  · simp only [Ask.Valid, lt_fin, le_fin, decide_eq_true_eq]; norm_num
  · simp only [Ask.Valid, lt_fin, le_fin, decide_eq_true_eq]; norm_num

/-- **C87 (refuted).** A misspelt optional key is ignored: `{"default", "min", "max", "Fixed": True}` makes a free parameter, while any value
for `fixed` other than a Boolean counts by its truth, so that `"fixed": "False"` fixes it. -/
theorem C87_misspelt_refuted (rnd : ℚ → ℚ) (cfg : Config) :
    (∃ u, convert rnd cfg (.mapping [("default", .num (.fin 2)), ("min", .num (.fin 1)), ("max", .num (.fin 5)), ("Fixed", .num (.fin 1))]) =
      .ok u ∧ u.fixed = false) ∧
    (∃ u, convert rnd cfg (.mapping [("default", .num (.fin 2)), ("min", .num (.fin 1)), ("max", .num (.fin 5)), ("fixed", .junk true)]) =
      .ok u ∧ u.fixed = true) := by
  have v : ∀ f, (Ask.mk (.fin 2) (.fin 1) (.fin 5) false f).Valid := by
    intro f; simp only [Ask.Valid, lt_fin, le_fin, decide_eq_true_eq]; norm_num
  constructor
  · have ha : Asks cfg (.mapping [("default", .num (.fin 2)), ("min", .num (.fin 1)), ("max", .num (.fin 5)), ("Fixed", .num (.fin 1))])
        ⟨.fin 2, .fin 1, .fin 5, false, false⟩ :=
      .mapping _ _ _ _ _ _ (by rfl) (by rfl) (by rfl) (.inl ⟨by decide, rfl⟩) (.inl ⟨by decide, rfl⟩)
    obtain ⟨u, hu⟩ := (convert_spec rnd cfg _).2 _ ha (v _)
    refine ⟨u, hu, ?_⟩
    obtain ⟨d, lo, hi, e1, e2, e3, -, hm⟩ := (create_spec ..).1 u hu
    exact hm.2.2.2.1
  · have ha : Asks cfg (.mapping [("default", .num (.fin 2)), ("min", .num (.fin 1)), ("max", .num (.fin 5)), ("fixed", .junk true)])
        ⟨.fin 2, .fin 1, .fin 5, false, true⟩ :=
      .mapping _ _ _ _ _ _ (by rfl) (by rfl) (by rfl) (.inl ⟨by decide, rfl⟩) (.inr ⟨.junk true, by rfl, .junk true⟩)
    obtain ⟨u, hu⟩ := (convert_spec rnd cfg _).2 _ ha (v _)
    refine ⟨u, hu, ?_⟩
    obtain ⟨d, lo, hi, e1, e2, e3, -, hm⟩ := (create_spec ..).1 u hu
    exact hm.2.2.2.1

end Elisa.Models.Slot
