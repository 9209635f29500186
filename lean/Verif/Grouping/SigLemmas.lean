import Verif.Grouping.Signif
import Verif.Grouping.OptLemmas
import Verif.Grouping.Props
import Verif.Grouping.ScaleLemmas

/-! Helper lemmas for the significance groupings, and the shape of their specification. -/

namespace Elisa.Grouping

open Elisa

/-- `c` is the first end at which a group starting at `a` closes. -/
def FirstClose (closes : Nat → Nat → Prop) (a c : Nat) : Prop :=
  a < c ∧ closes a c ∧ ∀ e, a < e → e < c → ¬ closes a e

/-- What a greedy significance grouping of `nd` channels promises.  `meets a b`: channels `a..b-1`
reach the threshold.  `closes a b`: the condition at which the search stops. -/
structure SigSpec (nd : Nat) (closes meets : Nat → Nat → Prop) (flags : List Int) (success : Bool) :
    Prop where
  /-- the flags describe a partition of all the channels -/
  valid : ValidFlags flags nd
  /-- success is reported exactly when every group reaches the threshold -/
  success_iff : success = true ↔ ∀ a b, IsGroup flags a b → meets a b
  /-- every group except the last one ends at the first channel where the threshold is reached -/
  minimal : ∀ a b, IsGroup flags a b → b < nd → FirstClose closes a b
  /-- the last group is such a group, or one followed by channels that never reach the threshold, or
  the whole segment if nothing reaches it -/
  last : ∀ a, IsGroup flags a nd → FirstClose closes a nd ∨
    (∃ c, c < nd ∧ FirstClose closes a c ∧ ∀ e, c < e → e ≤ nd → ¬ closes c e) ∨
    (a = 0 ∧ ∀ e, 0 < e → e ≤ nd → ¬ closes 0 e)

theorem greedy_spec {ok : Nat → Nat → Bool} {nd : Nat} (hnd : 0 < nd)
    {closes meets : Nat → Nat → Prop}
    (hok : ∀ a b, a < b → b ≤ nd → (ok a b = true ↔ closes a b)) {success : Bool}
    (hs : success = true ↔ ∀ e ∈ revEdges (greedyLoop ok nd 0 0 [0]) nd, meets e.1 e.2) :
    SigSpec nd closes meets (setFlags nd (greedyLoop ok nd 0 0 [0]).reverse) success := by
  have hout := greedy_out ok hnd
  set r := greedyLoop ok nd 0 0 [0] with hr
  have hdesc := hout.desc
  have hno : ∀ a b, a < b → b ≤ nd → ok a b = false → ¬ closes a b := by
    intro a b h1 h2 h3 h4
    rw [(hok a b h1 h2).2 h4] at h3; cases h3
  have hcl : ∀ a b, b ≤ nd → Closed ok a b → FirstClose closes a b := by
    intro a b hb ⟨h1, h2, h3⟩
    exact ⟨h1, (hok a b h1 hb).1 h2, fun e he1 he2 => hno a e he1 (by omega) (h3 e he1 he2)⟩
  obtain ⟨s, t, hst⟩ : ∃ s t, r = s :: t := by
    cases h : r with
    | nil => exact absurd hdesc.last (by simp [h])
    | cons s t => exact ⟨s, t, rfl⟩
  refine ⟨validFlags_setFlags hdesc, ?_, ?_, ?_⟩
  · rw [hs]
    constructor
    · intro h a b hab
      exact h (a, b) ((isGroup_setFlags hdesc).1 hab)
    · intro h e he
      exact h e.1 e.2 ((isGroup_setFlags hdesc).2 he)
  · intro a b hab hb
    have he := (isGroup_setFlags hdesc).1 hab
    rw [hst] at he
    simp only [revEdges, List.mem_cons, Prod.mk.injEq] at he
    rcases he with ⟨_, rfl⟩ | he
    · omega
    · exact hcl a b hb.le (hout.closed s t hst (a, b) he)
  · intro a hab
    have he := (isGroup_setFlags hdesc).1 hab
    rw [hst] at he
    simp only [revEdges, List.mem_cons, Prod.mk.injEq] at he
    have has : a = s := by
      rcases he with ⟨h, _⟩ | he
      · exact h
      · exfalso
        by_cases ht : t = []
        · subst ht; simp [revEdges] at he
        · have hd2 := hdesc; rw [hst] at hd2
          have := (mem_revEdges_lt (hd2.tail ht).pw (hd2.tail ht).lt he).2
          have := hd2.lt s (by simp)
          omega
    subst has
    have hlt : a < nd := hab.1
    rcases hout.tail a t hst with ⟨h1, h2⟩ | ⟨b, h1, h2, h3, h4⟩
    · by_cases h5 : ok a nd = true
      · exact Or.inl (hcl a nd (le_refl _) ⟨hlt, h5, h1⟩)
      · have ht : t = [] := h2.resolve_left h5
        subst ht
        have hs0 : a = 0 := by have := hdesc.last; rw [hst] at this; simpa using this
        subst hs0
        refine Or.inr (Or.inr ⟨rfl, ?_⟩)
        intro e he1 he2
        by_cases he3 : e = nd
        · subst he3; exact hno 0 e he1 he2 (by simpa using h5)
        · exact hno 0 e he1 he2 (h1 e he1 (by omega))
    · exact Or.inr (Or.inl ⟨b, h2, hcl a b h2.le h3, fun e he1 he2 => hno b e he1 he2 (h4 e he1 he2)⟩)

/-- `c` is the first end past the optimal bin starting at `a` at which the group closes. -/
def FirstOptClose (bint : List Nat) (closes : Nat → Nat → Prop) (a c : Nat) : Prop :=
  ∃ w, OptimalEnd bint a w ∧ w < c ∧ closes a c ∧ ∀ e, w < e → e < c → ¬ closes a e

/-- No end from the end of the optimal bin on closes a group starting at `a`. -/
def NeverCloses (bint : List Nat) (closes : Nat → Nat → Prop) (a : Nat) : Prop :=
  ∃ w, OptimalEnd bint a w ∧ ∀ e, w < e → e ≤ bint.length → ¬ closes a e

/-- What an optimal significance grouping promises. -/
structure OptSigSpec (bint : List Nat) (closes meets : Nat → Nat → Prop) (flags : List Int)
    (success : Bool) : Prop where
  valid : ValidFlags flags bint.length
  success_iff : success = true ↔ ∀ a b, IsGroup flags a b → meets a b
  minimal : ∀ a b, IsGroup flags a b → b < bint.length → FirstOptClose bint closes a b
  last : ∀ a, IsGroup flags a bint.length → FirstOptClose bint closes a bint.length ∨
    (∃ c, c < bint.length ∧ FirstOptClose bint closes a c ∧ NeverCloses bint closes c) ∨
    (a = 0 ∧ NeverCloses bint closes 0)

theorem opt_spec {ok : Nat → Nat → Bool} {bint : List Nat} (hnd : 0 < bint.length)
    (hb : ∀ x ∈ bint, 1 ≤ x) {closes meets : Nat → Nat → Prop}
    (hok : ∀ a b, a < b → b ≤ bint.length → (ok a b = true ↔ closes a b))
    (ext : Nat → Nat → Option Nat)
    (hexteq : ∀ i, i < bint.length → ext i (optWidth bint (bint.length - 1) i) =
      sigExtend ok (bint.length - optWidth bint (bint.length - 1) i) i
        (optWidth bint (bint.length - 1) i)) {success : Bool}
    (hs : success = true ↔ ∀ e ∈ revEdges (optLoop ext bint bint.length bint.length 0 [])
      bint.length, meets e.1 e.2) :
    OptSigSpec bint closes meets
      (setFlags bint.length (optLoop ext bint bint.length bint.length 0 []).reverse) success := by
  have hb' : ∀ k, k ≤ bint.length - 1 → 1 ≤ bint.getD k 0 := fun k hk => getD_one_le hb hk hnd
  have hw1 : ∀ i, i < bint.length → i ≤ optWidth bint (bint.length - 1) i :=
    fun i hi => le_optWidth (by omega) hb'
  have hw2 : ∀ i, optWidth bint (bint.length - 1) i ≤ bint.length - 1 := fun i => optWidth_le
  have hout := opt_out ext bint hnd (by
    intro i j hi h
    rw [hexteq i hi] at h
    have h' := sigExtend_some h
    have := hw1 i hi
    have := hw2 i
    omega)
  set r := optLoop ext bint bint.length bint.length 0 [] with hr
  have hdesc := hout.desc
  have hno : ∀ a b, a < b → b ≤ bint.length → ok a b = false → ¬ closes a b := by
    intro a b h1 h2 h3 h4
    rw [(hok a b h1 h2).2 h4] at h3; cases h3
  have hsome : ∀ a b, a < bint.length → a < b → b ≤ bint.length →
      ext a (optWidth bint (bint.length - 1) a) = some (b - 1) → FirstOptClose bint closes a b := by
    intro a b ha hab hbl h
    rw [hexteq a ha] at h
    obtain ⟨h2, h3, h4, h5⟩ := sigExtend_some h
    have hb1 : b - 1 + 1 = b := by omega
    rw [hb1] at h4
    have hwa := hw1 a ha
    refine ⟨_, optimalEnd_optWidth hb ha, by omega, (hok a b hab hbl).1 h4, ?_⟩
    intro e he1 he2
    have := h5 (e - 1) (by omega) (by omega)
    have hc : e - 1 + 1 = e := by omega
    rw [hc] at this
    exact hno a e (by omega) (by omega) this
  have hnone : ∀ a, a < bint.length → ext a (optWidth bint (bint.length - 1) a) = none →
      NeverCloses bint closes a := by
    intro a ha h
    rw [hexteq a ha] at h
    have h2 := sigExtend_none h
    have hwa := hw1 a ha
    have hwb := hw2 a
    refine ⟨_, optimalEnd_optWidth hb ha, ?_⟩
    intro e he1 he2
    have := h2 (e - 1) (by omega) (by omega)
    have hc : e - 1 + 1 = e := by omega
    rw [hc] at this
    exact hno a e (by omega) (by omega) this
  obtain ⟨s, t, hst⟩ : ∃ s t, r = s :: t := by
    cases h : r with
    | nil => exact absurd hdesc.last (by simp [h])
    | cons s t => exact ⟨s, t, rfl⟩
  have hslt : s < bint.length := hdesc.lt s (by simp [hst])
  refine ⟨validFlags_setFlags hdesc, ?_, ?_, ?_⟩
  · rw [hs]
    constructor
    · intro h a b hab
      exact h (a, b) ((isGroup_setFlags hdesc).1 hab)
    · intro h e he
      exact h e.1 e.2 ((isGroup_setFlags hdesc).2 he)
  · intro a b hab hbl
    have he := (isGroup_setFlags hdesc).1 hab
    have hlt := hab.1
    rw [hst] at he
    simp only [revEdges, List.mem_cons, Prod.mk.injEq] at he
    rcases he with ⟨_, rfl⟩ | he
    · omega
    · exact hsome a b (by omega) hlt hbl.le (hout.closed s t hst (a, b) he)
  · intro a hab
    have he := (isGroup_setFlags hdesc).1 hab
    rw [hst] at he
    simp only [revEdges, List.mem_cons, Prod.mk.injEq] at he
    have has : a = s := by
      rcases he with ⟨h, _⟩ | he
      · exact h
      · exfalso
        by_cases ht : t = []
        · subst ht; simp [revEdges] at he
        · have hd2 := hdesc; rw [hst] at hd2
          have := (mem_revEdges_lt (hd2.tail ht).pw (hd2.tail ht).lt he).2
          omega
    subst has
    rcases hout.tail a t hst with h | ⟨h, h'⟩ | ⟨b, h1, h2, h3, h4⟩
    · exact Or.inl (hsome a _ hslt hslt (le_refl _) h)
    · subst h'
      have hs0 : a = 0 := by have := hdesc.last; rw [hst] at this; simpa using this
      subst hs0
      exact Or.inr (Or.inr ⟨rfl, hnone 0 hslt h⟩)
    · exact Or.inr (Or.inl ⟨b, h2, hsome a b hslt h1 h2.le h3, hnone b h2 h4⟩)

/-! ### success tests -/

theorem mem_edges_reverse {r : List Nat} {nd : Nat} {e : Nat × Nat} :
    e ∈ edges r.reverse nd ↔ e ∈ revEdges r nd := by
  rw [edges_reverse, List.mem_reverse]

theorem limaSuccess_iff {on off : List ℝ} {d : RatioData} {sig : ℝ} {r : List Nat}
    (hl : on.length = off.length) (hd : Desc r on.length) :
    limaSuccess on off d sig r.reverse = true ↔ ∀ e ∈ revEdges r on.length,
      sig ≤ significanceLima (total on e.1 e.2) (total off e.1 e.2) (d.ratio e.1 e.2) := by
  have hp : r.reverse.Pairwise (· < ·) := by rw [List.pairwise_reverse]; exact hd.pw
  unfold limaSuccess RatioData.ratios intervalRatios
  rw [reduceat_eq on _ hp, reduceat_eq off _ hp, ← hl, List.zip_map', List.zip_map', List.all_map,
    List.all_eq_true]
  simp only [mem_edges_reverse, Function.comp, decide_eq_true_eq]
  rfl

theorem gvSuccess_iff {n b s : List ℝ} {d : RatioData} {sig : ℝ} {r : List Nat}
    (hl : n.length = b.length) (hl2 : b.length = s.length) (hd : Desc r n.length) :
    gvSuccess n b s d sig r.reverse = true ↔ ∀ e ∈ revEdges r n.length,
      sig ≤ significanceGv (total n e.1 e.2) (total b e.1 e.2)
        (Real.sqrt (total (s.map fun x => x * x) e.1 e.2)) (d.ratio e.1 e.2) := by
  have hp : r.reverse.Pairwise (· < ·) := by rw [List.pairwise_reverse]; exact hd.pw
  unfold gvSuccess RatioData.ratios intervalRatios
  rw [reduceat_eq n _ hp, reduceat_eq b _ hp, reduceat_eq _ _ hp, List.length_map, ← hl2, ← hl,
    List.zip_map', List.zip_map', List.zip_map', List.all_map, List.all_eq_true]
  simp only [mem_edges_reverse, Function.comp, decide_eq_true_eq]
  rfl

theorem normalSuccess_iff {count error : List ℝ} {sig : ℝ} {r : List Nat}
    (hl : count.length = error.length) (hd : Desc r count.length) :
    normalSuccess count error sig r.reverse = true ↔ ∀ e ∈ revEdges r count.length,
      sig * Real.sqrt (total (error.map fun x => x * x) e.1 e.2) ≤ total count e.1 e.2 := by
  have hp : r.reverse.Pairwise (· < ·) := by rw [List.pairwise_reverse]; exact hd.pw
  unfold normalSuccess
  rw [reduceat_eq count _ hp, reduceat_eq _ _ hp, List.length_map, ← hl,
    List.zip_map', List.all_map, List.all_eq_true]
  simp only [mem_edges_reverse, Function.comp, decide_eq_true_eq, sub_nonneg]

theorem intervalSum_prefix {K : Type*} [Field K] (xs : List K) {a b : Nat} (hab : a ≤ b) (hb : b ≤ xs.length) :
    intervalSum (prefixSum xs) a b = total xs a b := by
  classical exact prefixSum_diff xs hab hb

theorem normalLoop_eq (sig : ℝ) (count error : List ℝ) :
    ∀ (rest : List (ℝ × ℝ)) (i start : Nat) (gc gv : ℝ) (idx : List Nat), start ≤ i →
      rest = (List.zip count error).drop i → gc = total count start i →
      gv = total (error.map fun e => e * e) start i →
      normalLoop sig rest i gc gv idx
        = greedyLoop (fun a b => decide
            (0 ≤ total count a b - sig * Real.sqrt (total (error.map fun e => e * e) a b) ∧
              0 < total (error.map fun e => e * e) a b)) rest.length i start idx := by
  have hnn : ∀ a b, 0 ≤ total (error.map fun e => e * e) a b := by
    intro a b
    unfold total
    apply Finset.sum_nonneg
    intro k _
    by_cases hk : k < error.length
    · simp [List.getD, hk, mul_self_nonneg]
    · simp [List.getD, hk]
  intro rest
  induction rest with
  | nil => intros; simp [normalLoop, greedyLoop]
  | cons p r ih =>
    obtain ⟨d, e⟩ := p
    intro i start gc gv idx h1 h3 h4 h5
    have hp : (List.zip count error)[i]? = some (d, e) := by
      have : ((List.zip count error).drop i)[0]? = some (d, e) := by rw [← h3]; rfl
      rwa [List.getElem?_drop, Nat.add_zero] at this
    rw [List.getElem?_zip_eq_some] at hp
    have hd : count.getD i 0 = d := by simp [List.getD, hp.1]
    have he : (error.map fun e => e * e).getD i 0 = e * e := by simp [List.getD, hp.2]
    have hr : r = (List.zip count error).drop (i + 1) := by
      have := congrArg List.tail h3
      simpa [List.tail_drop] using this
    have hsum : gc + d = total count start (i + 1) := by rw [total_succ count h1, ← h4, hd]
    have hsum2 : gv + e * e = total (error.map fun e => e * e) start (i + 1) := by
      rw [total_succ _ h1, ← h5, he]
    cases r with
    | nil =>
      simp only [normalLoop, List.length_cons, List.length_nil, Nat.zero_add, greedyLoop, hsum, hsum2]
      congr 1
      have hz := hnn start (i + 1)
      simp only [Bool.not_eq_true', decide_eq_false_iff_not, not_and_or, not_le, not_lt]
      have : (total (error.map fun e => e * e) start (i + 1) = 0) ↔
          (total (error.map fun e => e * e) start (i + 1) ≤ 0) :=
        ⟨fun h => h.le, fun h => le_antisymm h hz⟩
      rw [this]
    | cons q r =>
      simp only [normalLoop, List.length_cons, greedyLoop, hsum, hsum2, decide_eq_true_eq]
      split
      · exact ih (i + 1) (i + 1) 0 0 _ (le_refl _) hr (by simp) (by simp)
      · exact ih (i + 1) start _ _ _ (by omega) hr rfl rfl

theorem sigExtend_eq_findIdx {α : Type*} {ok : Nat → Nat → Bool} {p : α → Bool} (i : Nat) :
    ∀ (L : List α) (j : Nat), (∀ m (hm : m < L.length), p L[m] = ok i (j + m + 1)) →
      (L.findIdx? p).map (fun m => j + m) = sigExtend ok L.length i j := by
  intro L
  induction L with
  | nil => intro j _; simp [sigExtend]
  | cons x L ih =>
    intro j h
    have h0 := h 0 (by simp)
    simp only [List.getElem_cons_zero, Nat.add_zero] at h0
    rw [List.findIdx?_cons, List.length_cons, sigExtend, h0]
    by_cases hk : ok i (j + 1) = true
    · simp [hk]
    · simp only [Bool.not_eq_true] at hk
      rw [hk, ← ih (j + 1)]
      · simp only [Bool.false_eq_true, if_false, Option.map_map]
        congr 1
        funext m
        simp only [Function.comp]
        omega
      · intro m hm
        have := h (m + 1) (by simpa using hm)
        simp only [List.getElem_cons_succ] at this
        rw [this]
        congr 1
        omega

theorem total_drop {K : Type*} [AddCommMonoid K] (xs : List K) (k m : Nat) :
    total (xs.drop k) 0 m = total xs k (k + m) := by
  unfold total
  rw [Finset.sum_Ico_eq_sum_range, Finset.sum_Ico_eq_sum_range]
  have h : m - 0 = k + m - k := by omega
  rw [h]
  apply Finset.sum_congr rfl
  intro i _
  simp [List.getD]

theorem length_cumsum {K : Type*} [AddCommMonoid K] (xs : List K) : (cumsum xs).length = xs.length := by
  unfold cumsum
  generalize (0 : K) = acc
  induction xs generalizing acc with
  | nil => rfl
  | cons x xs ih => simp [cumsumFrom, ih]

theorem getElem_cumsum {K : Type*} [Field K] (xs : List K) (m : Nat) (hm : m < (cumsum xs).length) :
    (cumsum xs)[m] = total xs 0 (m + 1) := by
  classical
  have h := getD_cumsumFrom 0 xs m (by rw [← length_cumsum xs]; exact hm)
  rw [zero_add] at h
  rw [← h]
  unfold cumsum at hm ⊢
  simp [List.getD, hm]

/-- The stopping rule of the extension loop of `group_optsig_normal` as a Boolean. -/
noncomputable def normalLinOk (bint : List Nat) (counts errors : List ℝ) (sig : ℝ) (a b : Nat) : Bool :=
  let w := optWidth bint (bint.length - 1) a
  let E := Real.sqrt (total (errors.map fun e => e * e) a (w + 1)) +
    Real.sqrt (total (errors.map fun e => e * e) (w + 1) b)
  decide (0 ≤ total counts a b - sig * E ∧ 0 < E)

theorem optNormalExtend_eq (bint : List Nat) (counts errors : List ℝ) (sig : ℝ)
    (hl1 : bint.length = counts.length) (hl2 : counts.length = errors.length) (i : Nat)
    (hi : i ≤ optWidth bint (bint.length - 1) i) (hn : 0 < bint.length) :
    optNormalExtend counts errors sig i (optWidth bint (bint.length - 1) i) =
      sigExtend (normalLinOk bint counts errors sig)
        (bint.length - optWidth bint (bint.length - 1) i) i (optWidth bint (bint.length - 1) i) := by
  have hw2 : optWidth bint (bint.length - 1) i ≤ bint.length - 1 := optWidth_le
  have hokdef : ∀ b, normalLinOk bint counts errors sig i b = decide
      (0 ≤ total counts i b - sig * (Real.sqrt (total (errors.map fun e => e * e) i
        (optWidth bint (bint.length - 1) i + 1)) + Real.sqrt (total (errors.map fun e => e * e)
        (optWidth bint (bint.length - 1) i + 1) b)) ∧
        0 < Real.sqrt (total (errors.map fun e => e * e) i
        (optWidth bint (bint.length - 1) i + 1)) + Real.sqrt (total (errors.map fun e => e * e)
        (optWidth bint (bint.length - 1) i + 1) b)) := fun b => rfl
  generalize optWidth bint (bint.length - 1) i = w at *
  obtain ⟨m, hm⟩ : ∃ m, bint.length - w = m + 1 := ⟨bint.length - w - 1, by omega⟩
  unfold optNormalExtend
  rw [hm, sigExtend, hokdef (w + 1)]
  simp only [← total_eq_sliceSum, total_self, Real.sqrt_zero, add_zero]
  have hE : 0 ≤ Real.sqrt (total (errors.map fun e => e * e) i (w + 1)) := Real.sqrt_nonneg _
  by_cases hc : total counts i (w + 1) - sig * Real.sqrt (total (errors.map fun e => e * e) i (w + 1)) < 0
      ∨ Real.sqrt (total (errors.map fun e => e * e) i (w + 1)) = 0
  · rw [if_pos hc, if_neg]
    · have hL : (List.zip ((cumsum (counts.drop (w + 1))).map (total counts i (w + 1) + ·))
          ((cumsum ((errors.drop (w + 1)).map fun e => e * e)).map
            (Real.sqrt (total (errors.map fun e => e * e) i (w + 1)) + Real.sqrt ·))).length = m := by
        simp only [List.length_zip, List.length_map, length_cumsum, List.length_drop]
        omega
      rw [← hL]
      rw [← sigExtend_eq_findIdx (p := fun p => decide (0 ≤ p.1 - sig * p.2 ∧ 0 < p.2))]
      · congr 1
        funext x; omega
      · intro k hk
        rw [hokdef]
        rw [List.getElem_zip]
        simp only [List.getElem_map]
        have hk' : k < m := by rw [← hL]; exact hk
        rw [getElem_cumsum, getElem_cumsum, List.map_drop, total_drop, total_drop,
          total_append counts (by omega) (by omega),
          show w + 1 + (k + 1) = w + 1 + k + 1 by omega]
    · simp only [decide_eq_true_eq, not_and_or, not_le, not_lt]
      rcases hc with h | h
      · exact Or.inl h
      · exact Or.inr h.le
  · rw [if_neg hc, if_pos]
    simp only [decide_eq_true_eq]
    push Not at hc
    exact ⟨hc.1, lt_of_le_of_ne hE (Ne.symm hc.2)⟩

theorem total_sq_nonneg (errors : List ℝ) (a b : Nat) : 0 ≤ total (errors.map fun e => e * e) a b := by
  unfold total
  apply Finset.sum_nonneg
  intro k _
  by_cases hk : k < errors.length
  · simp [List.getD, hk, mul_self_nonneg]
  · simp [List.getD, hk]

end Elisa.Grouping
