import Verif.Grouping.OptLemmas
import Mathlib.Algebra.Order.Group.Int
import Mathlib.Data.Int.Order.Basic

/-!
# Properties C01–C04: constant, minimum-count and optimal grouping

Specification vocabulary (`Verif/Grouping/Spec.lean`): `ValidFlags`, `IsGroup`, `total`, `numGroups`.
-/

namespace Elisa.Grouping

open Elisa

/-! ## C01 minimum-count grouping -/

section C01
variable {K : Type*} [AddCommGroup K] [LinearOrder K] [IsOrderedAddMonoid K]

/-- Everything C01 promises about the result `(flags, success)` of grouping `data` by at least `n`
counts. -/
structure MinCountSpec (data : List K) (n : K) (flags : List Int) (success : Bool) : Prop where
  /-- the flags describe a partition of all the channels -/
  valid : ValidFlags flags data.length
  /-- success is reported exactly when the whole segment holds enough counts -/
  success_iff : success = true ↔ n ≤ total data 0 data.length
  /-- on success every group holds enough counts -/
  enough : success = true → ∀ a b, IsGroup flags a b → n ≤ total data a b
  /-- a group that is not the last one holds enough counts, and would not without its last channel -/
  minimal : ∀ a b, IsGroup flags a b → b < data.length →
    n ≤ total data a b ∧ ∀ c, a < c → c < b → total data a c < n
  /-- no grouping with enough counts everywhere has more groups -/
  maximal : ∀ flags', ValidFlags flags' data.length →
    (∀ a b, IsGroup flags' a b → n ≤ total data a b) → numGroups flags' ≤ numGroups flags

theorem total_zero_of_group {data : List K} {r : List Nat} (hpos : ∀ x ∈ data, 0 ≤ x)
    (h : Desc r data.length) {n : K} (hall : ∀ e ∈ revEdges r data.length, n ≤ total data e.1 e.2) :
    n ≤ total data 0 data.length := by
  obtain ⟨s, t, rfl⟩ : ∃ s t, r = s :: t := by
    cases r with
    | nil => exact absurd h.last (by simp)
    | cons s t => exact ⟨s, t, rfl⟩
  exact le_trans (hall (s, data.length) (by simp [revEdges])) (total_mono hpos (Nat.zero_le _) (le_refl _))

/-- **C01.** -/
theorem C01_group_min (data : List K) (n : K) (hne : data ≠ []) (hn : 0 < n)
    (hpos : ∀ x ∈ data, 0 ≤ x) :
    ∃ flags success, groupMin data n = .ok (flags, success) ∧ MinCountSpec data n flags success := by
  have hnd : 0 < data.length := List.length_pos_of_ne_nil hne
  set ok : Nat → Nat → Bool := fun a b => decide (n ≤ total data a b) with hok
  have hloop : minLoop n data 0 0 [0] = greedyLoop ok data.length 0 0 [0] :=
    minLoop_eq n data data 0 0 0 [0] (le_refl _) (Nat.zero_le _) (by simp) (by simp)
  have hout := greedy_out ok hnd
  set r := greedyLoop ok data.length 0 0 [0] with hr
  have hred : reduceat data r.reverse
      = ((revEdges r data.length).map (fun e => total data e.1 e.2)).reverse :=
    reduceat_reverse data r hout.desc.pw
  have hsucc : ((reduceat data r.reverse).all (fun x => decide (n ≤ x))) = true ↔
      ∀ e ∈ revEdges r data.length, n ≤ total data e.1 e.2 := by
    rw [hred]; simp [List.all_eq_true]
  refine ⟨setFlags data.length r.reverse, (reduceat data r.reverse).all (fun x => decide (n ≤ x)),
    ?_, ?_⟩
  · unfold groupMin
    rw [if_neg (not_le.2 hn), if_neg hne, hloop]
  · have hdesc := hout.desc
    have hgrp := fun a b => isGroup_setFlags (a := a) (b := b) hdesc
    obtain ⟨s, t, hst⟩ : ∃ s t, r = s :: t := by
      cases h : r with
      | nil => exact absurd hdesc.last (by simp [h])
      | cons s t => exact ⟨s, t, rfl⟩
    have hcl := hout.closed s t hst
    have htl := hout.tail s t hst
    -- all groups but the last are closed; the last one is fine when the total is
    have hall_of_total : n ≤ total data 0 data.length →
        ∀ e ∈ revEdges r data.length, n ≤ total data e.1 e.2 := by
      intro htot e he
      rw [hst] at he
      simp only [revEdges, List.mem_cons] at he
      rcases he with rfl | he
      · simp only
        rcases htl with ⟨_, h | h⟩ | ⟨b, h1, h2, h3, _⟩
        · simpa [hok] using h
        · subst h
          have hs : s = 0 := by
            have := hdesc.last; rw [hst] at this; simpa using this
          rw [hs]; exact htot
        · have : n ≤ total data s b := by simpa [hok] using h3.2.1
          exact le_trans this (total_mono hpos (le_refl _) (le_of_lt h2))
      · have := (hcl e he).2.1
        simpa [hok] using this
    refine ⟨validFlags_setFlags hdesc, ?_, ?_, ?_, ?_⟩
    · rw [hsucc]
      exact ⟨fun h => total_zero_of_group hpos hdesc h, hall_of_total⟩
    · intro h a b hab
      exact hsucc.1 h (a, b) ((hgrp a b).1 hab)
    · intro a b hab hb
      have he := (hgrp a b).1 hab
      rw [hst] at he
      simp only [revEdges, List.mem_cons, Prod.mk.injEq] at he
      rcases he with ⟨_, rfl⟩ | he
      · omega
      · have hc := hcl (a, b) he
        refine ⟨by simpa [hok] using hc.2.1, ?_⟩
        intro c h1 h2
        have := hc.2.2 c h1 h2
        simpa [hok] using this
    · intro flags' hv hall
      obtain ⟨r', hr', rfl⟩ := exists_desc_of_valid hv hnd
      rw [numGroups_setFlags hdesc, numGroups_setFlags hr']
      exact greedy_length_max hpos hout hr' (fun e he => hall e.1 e.2 ((isGroup_setFlags hr').2 he))

example := C01_group_min ([3, 0, 2, 5, 0, 1, 4, 2] : List ℤ) 5 (by decide) (by decide) (by decide)

omit [IsOrderedAddMonoid K] in
/-- Inputs outside the domain of C01 are rejected, never mis-grouped. -/
theorem C01_rejects (data : List K) (n : K) (h : n ≤ 0 ∨ data = []) :
    ∃ e, groupMin data n = .error e := by
  unfold groupMin
  by_cases hn : n ≤ 0
  · exact ⟨_, if_pos hn⟩
  · rcases h with h | h
    · exact absurd h hn
    · exact ⟨_, by rw [if_neg hn, if_pos h]⟩

/-- C01 is not vacuous: a concrete spectrum with a short tail that is merged. -/
example : groupMin ([3, 0, 2, 5, 0, 1, 4, 2] : List ℤ) 5
    = .ok ([1, -1, -1, 1, 1, -1, -1, -1], true) := by decide

example : groupMin ([1, 2] : List ℤ) 5 = .ok ([1, -1], false) := by decide

end C01

/-! ## C02 constant grouping -/

/-- What C02 promises: groups of exactly `c` channels, the last one absorbing the remainder. -/
structure ConstSpec (n c : Nat) (flags : List Int) : Prop where
  valid : ValidFlags flags n
  exact : ∀ a b, IsGroup flags a b → b < n → b = a + c
  last : ∀ a, IsGroup flags a n → c ≤ n - a ∧ n - a < 2 * c
  number : numGroups flags = n / c

/-- Helper: the starts produced by `group_const`, in reverse. -/
def constStarts (c : Nat) : Nat → List Nat
  | 0 => []
  | q + 1 => (q * c) :: constStarts c q

theorem mem_constStarts {c q k : Nat} : k ∈ constStarts c q ↔ ∃ i, i < q ∧ k = i * c := by
  induction q with
  | zero => simp [constStarts]
  | succ q ih =>
    simp only [constStarts, List.mem_cons, ih]
    constructor
    · rintro (rfl | ⟨i, h1, rfl⟩)
      · exact ⟨q, by omega, rfl⟩
      · exact ⟨i, by omega, rfl⟩
    · rintro ⟨i, h1, rfl⟩
      by_cases h : i = q
      · left; rw [h]
      · right; exact ⟨i, by omega, rfl⟩

theorem desc_constStarts {c : Nat} (hc : 0 < c) (q : Nat) : Desc (constStarts c (q + 1)) (q * c + 1) := by
  induction q with
  | zero => simpa [constStarts] using desc_singleton (nd := 1) (by omega)
  | succ q ih =>
    have : Desc (constStarts c (q + 1)) ((q + 1) * c) :=
      ih.mono (by rw [Nat.succ_mul]; omega)
    exact this.cons (by omega)

theorem length_constStarts (c q : Nat) : (constStarts c q).length = q := by
  induction q with
  | zero => rfl
  | succ q ih => simp [constStarts, ih]

theorem revEdges_constStarts {c q a b hi : Nat} (h : (a, b) ∈ revEdges (constStarts c (q + 1)) hi) :
    (a = q * c ∧ b = hi) ∨ b = a + c := by
  induction q generalizing hi with
  | zero => simp [constStarts, revEdges] at h; left; simpa using h
  | succ q ih =>
    rw [constStarts] at h
    simp only [revEdges, List.mem_cons, Prod.mk.injEq] at h
    rcases h with ⟨rfl, rfl⟩ | h
    · left; exact ⟨rfl, rfl⟩
    · right
      rcases ih h with ⟨rfl, rfl⟩ | h
      · rw [Nat.succ_mul]
      · exact h

theorem groupConst_flags {n c : Nat} (hc : 0 < c) (hcn : c ≤ n) :
    (List.range n).map (fun k =>
      if n % c ≠ 0 ∧ k = n - n % c then (-1 : Int) else if k % c = 0 then 1 else -1)
    = setFlags n (constStarts c (n / c)).reverse := by
  unfold setFlags
  apply List.map_congr_left
  intro k hk
  have hk : k < n := by simpa using hk
  have hdiv : c * (n / c) + n % c = n := Nat.div_add_mod n c
  have hmod : n % c < c := Nat.mod_lt _ hc
  simp only [List.mem_reverse, mem_constStarts]
  by_cases hx : n % c ≠ 0 ∧ k = n - n % c
  · rw [if_pos hx, if_neg]
    rintro ⟨i, h1, h2⟩
    have hk' : k = c * (n / c) := by omega
    rw [hk', Nat.mul_comm] at h2
    have := Nat.eq_of_mul_eq_mul_right hc h2
    omega
  · rw [if_neg hx]
    by_cases hk0 : k % c = 0
    · rw [if_pos hk0, if_pos]
      refine ⟨k / c, ?_, ?_⟩
      · have hkd : c * (k / c) = k := by have := Nat.div_add_mod k c; omega
        by_contra hcon
        push Not at hcon
        have hle : c * (n / c) ≤ c * (k / c) := Nat.mul_le_mul_left c hcon
        have hlt : k / c < n / c + 1 := by
          rw [Nat.div_lt_iff_lt_mul hc, Nat.add_mul, Nat.one_mul, Nat.mul_comm]; omega
        have heq : k / c = n / c := by omega
        rw [heq] at hkd
        apply hx
        constructor <;> omega
      · have := Nat.div_add_mod k c
        rw [Nat.mul_comm]; omega
    · rw [if_neg hk0, if_neg]
      rintro ⟨i, _, h2⟩
      exact hk0 (by rw [h2]; exact Nat.mul_mod_left i c)

/-- **C02** (restricted to segments with at least `c` channels; the other case is refuted by
`C02_short_segment_refuted`). -/
theorem C02_group_const_partial (n c : Nat) (hc : 0 < c) (hcn : c ≤ n) :
    ∃ flags, groupConst n c = .ok (flags, true) ∧ ConstSpec n c flags := by
  refine ⟨_, by unfold groupConst; rw [if_neg (by omega)], ?_⟩
  rw [groupConst_flags hc hcn]
  have hdiv : c * (n / c) + n % c = n := Nat.div_add_mod n c
  have hmod : n % c < c := Nat.mod_lt _ hc
  obtain ⟨q, hq⟩ : ∃ q, n / c = q + 1 := ⟨n / c - 1, by
    have : 0 < n / c := Nat.div_pos hcn hc
    omega⟩
  rw [hq] at hdiv ⊢
  have hqc : c * (q + 1) = q * c + c := by rw [Nat.mul_succ, Nat.mul_comm]
  have hd : Desc (constStarts c (q + 1)) n := (desc_constStarts hc q).mono (by omega)
  refine ⟨validFlags_setFlags hd, ?_, ?_, ?_⟩
  · intro a b hab hb
    rcases revEdges_constStarts ((isGroup_setFlags hd).1 hab) with ⟨_, h⟩ | h
    · omega
    · exact h
  · intro a hab
    rcases revEdges_constStarts ((isGroup_setFlags hd).1 hab) with ⟨h, _⟩ | h
    · subst h; omega
    · omega
  · rw [numGroups_setFlags hd, length_constStarts, hq]

example := C02_group_const_partial 7 3 (by decide) (by decide)

/-- **C02 is false for short segments**: whenever a non-empty segment has fewer than `c` channels,
`group_const` reports success with flags that contain no group start at all, so the first channel of
the segment is glued to whatever precedes the segment. -/
theorem C02_short_segment_refuted (n c : Nat) (hn : 0 < n) (hnc : n < c) :
    ∃ flags, groupConst n c = .ok (flags, true) ∧ flags.length = n ∧ (∀ f ∈ flags, f = -1) ∧
      ¬ ValidFlags flags n := by
  refine ⟨_, by unfold groupConst; rw [if_neg (by omega)], ?_⟩
  have hmod : n % c = n := Nat.mod_eq_of_lt hnc
  have hall : ∀ f ∈ (List.range n).map (fun k =>
      if n % c ≠ 0 ∧ k = n - n % c then (-1 : Int) else if k % c = 0 then 1 else -1), f = -1 := by
    intro f hf
    obtain ⟨k, hk, rfl⟩ := List.mem_map.1 hf
    have hk : k < n := by simpa using hk
    rw [hmod]
    by_cases h0 : k = 0
    · rw [if_pos ⟨by omega, by omega⟩]
    · rw [if_neg (by omega), if_neg]
      rw [Nat.mod_eq_of_lt (by omega)]; exact h0
  refine ⟨by simp, hall, ?_⟩
  intro hv
  have := hall 1 (List.mem_of_getElem? hv.first)
  omega

example : groupConst 7 3 = .ok ([1, -1, -1, 1, -1, -1, -1], true) := by decide
example : groupConst 2 3 = .ok ([-1, -1], true) := by decide

/-! ## C03 optimal grouping without a count requirement -/

/-- C03: the flags describe a partition, no group is wider than the optimal width at any of its
channels, and no group could be extended to the right without breaking this. -/
structure OptSpec (bint : List Nat) (flags : List Int) : Prop where
  valid : ValidFlags flags bint.length
  width : ∀ a b, IsGroup flags a b → ∀ k, a ≤ k → k < b → b ≤ k + bint.getD k 0
  maximal : ∀ a b, IsGroup flags a b → b < bint.length →
    ∃ k, a ≤ k ∧ k ≤ b ∧ k + bint.getD k 0 < b + 1

theorem getD_one_le {bint : List Nat} (hb : ∀ x ∈ bint, 1 ≤ x) {k : Nat} (hk : k ≤ bint.length - 1)
    (h0 : 0 < bint.length) : 1 ≤ bint.getD k 0 := by
  rw [List.getD_eq_getElem _ _ (by omega)]
  exact hb _ (List.getElem_mem _)

/-- **C03.** -/
theorem C03_group_opt {K : Type*} [AddCommGroup K] [LinearOrder K] (bint : List Nat)
    (h0 : bint ≠ []) (hb : ∀ x ∈ bint, 1 ≤ x) :
    ∃ flags, groupOpt (K := K) bint none 0 = (flags, true) ∧ OptSpec bint flags := by
  have hnd : 0 < bint.length := List.length_pos_of_ne_nil h0
  have hb' : ∀ k, k ≤ bint.length - 1 → 1 ≤ bint.getD k 0 := fun k hk => getD_one_le hb hk hnd
  have hout := opt_out (fun _ j => some j) bint hnd (by
    intro i j hi h
    simp only [Option.some.injEq] at h
    subst h
    have h1 := le_optWidth (bint := bint) (imax := bint.length - 1) (i := i) (by omega) hb'
    have h2 := optWidth_le (bint := bint) (imax := bint.length - 1) (i := i)
    omega)
  set r := optLoop (fun _ j => some j) bint bint.length bint.length 0 [] with hr
  refine ⟨setFlags bint.length r.reverse, rfl, ?_⟩
  have hdesc := hout.desc
  obtain ⟨s, t, hst⟩ : ∃ s t, r = s :: t := by
    cases h : r with
    | nil => exact absurd hdesc.last (by simp [h])
    | cons s t => exact ⟨s, t, rfl⟩
  have key : ∀ a b, IsGroup (setFlags bint.length r.reverse) a b →
      a < b ∧ b ≤ bint.length ∧ optWidth bint (bint.length - 1) a = b - 1 := by
    intro a b hab
    have he := (isGroup_setFlags hdesc).1 hab
    have hlt := mem_revEdges_lt hdesc.pw hdesc.lt he
    refine ⟨hlt.1, hlt.2, ?_⟩
    rw [hst] at he
    simp only [revEdges, List.mem_cons, Prod.mk.injEq] at he
    rcases he with ⟨rfl, rfl⟩ | he
    · rcases hout.tail a t hst with h | ⟨h, _⟩ | ⟨b, _, _, _, h⟩
      · simpa using h
      · simp at h
      · simp at h
    · simpa using hout.closed s t hst (a, b) he
  refine ⟨validFlags_setFlags hdesc, ?_, ?_⟩
  · intro a b hab k h1 h2
    obtain ⟨h3, h4, h5⟩ := key a b hab
    have h6 := optWidth_prop (bint := bint) (imax := bint.length - 1) h1 (by omega : k ≤ _)
    have := hb' k (by omega)
    omega
  · intro a b hab hbn
    obtain ⟨h3, h4, h5⟩ := key a b hab
    by_contra hcon
    push Not at hcon
    have := optWidth_greatest (bint := bint) (imax := bint.length - 1) (i := a) (j := b)
      (by omega) (by omega) hb' (fun k h1 h2 => by have := hcon k h1 h2; omega)
    omega

example : groupOpt (K := ℤ) [2, 3, 1, 4, 4, 2, 5] none 0 = ([1, -1, 1, 1, -1, -1, -1], true) := by
  decide

/-! ## C04 optimal grouping with a minimum number of counts -/

section C04
variable {K : Type*} [AddCommGroup K] [LinearOrder K] [IsOrderedAddMonoid K]

/-- `w` is the last channel of the optimal bin that starts at channel `i` (the largest `w` such that
the bin `i..w` is not wider than the optimal width at any of its channels). -/
def OptimalEnd (bint : List Nat) (i w : Nat) : Prop :=
  IsGreatest {j | i ≤ j ∧ j < bint.length ∧ ∀ k, i ≤ k → k ≤ j → j + 1 ≤ k + bint.getD k 0} w

/-- C04. -/
structure OptMinSpec (bint : List Nat) (data : List K) (n : K) (flags : List Int) (success : Bool) :
    Prop where
  valid : ValidFlags flags data.length
  success_iff : success = true ↔ n ≤ total data 0 data.length
  enough : success = true → ∀ a b, IsGroup flags a b → n ≤ total data a b
  /-- a group that is not the last one covers the optimal bin, holds enough counts, and would not be
  both if it stopped earlier -/
  minimal : ∀ a b, IsGroup flags a b → b < data.length → n ≤ total data a b ∧
    ∃ w, OptimalEnd bint a w ∧ w < b ∧ ∀ c, w < c → c < b → total data a c < n

theorem optimalEnd_optWidth {bint : List Nat} (hb : ∀ x ∈ bint, 1 ≤ x) {i : Nat}
    (hi : i < bint.length) : OptimalEnd bint i (optWidth bint (bint.length - 1) i) := by
  have hb' : ∀ k, k ≤ bint.length - 1 → 1 ≤ bint.getD k 0 :=
    fun k hk => getD_one_le hb hk (by omega)
  have h1 := le_optWidth (bint := bint) (imax := bint.length - 1) (i := i) (by omega) hb'
  have h2 := optWidth_le (bint := bint) (imax := bint.length - 1) (i := i)
  refine ⟨⟨h1, by omega, ?_⟩, ?_⟩
  · intro k hk1 hk2
    have := optWidth_prop (bint := bint) (imax := bint.length - 1) hk1 hk2
    have := hb' k (by omega)
    omega
  · rintro j ⟨h3, h4, h5⟩
    apply optWidth_greatest h3 (by omega) hb'
    intro k hk1 hk2
    have := h5 k hk1 hk2
    omega

/-- **C04.** -/
theorem C04_group_optmin (bint : List Nat) (data : List K) (n : K) (hn : 0 < n)
    (hlen : bint.length = data.length) (h0 : data ≠ []) (hb : ∀ x ∈ bint, 1 ≤ x)
    (hpos : ∀ x ∈ data, 0 ≤ x) :
    OptMinSpec bint data n (groupOpt bint (some data) n).1 (groupOpt bint (some data) n).2 := by
  have hnd : 0 < bint.length := by rw [hlen]; exact List.length_pos_of_ne_nil h0
  have hb' : ∀ k, k ≤ bint.length - 1 → 1 ≤ bint.getD k 0 := fun k hk => getD_one_le hb hk hnd
  have hw1 : ∀ i, i < bint.length → i ≤ optWidth bint (bint.length - 1) i :=
    fun i hi => le_optWidth (by omega) hb'
  have hw2 : ∀ i, optWidth bint (bint.length - 1) i ≤ bint.length - 1 := fun i => optWidth_le
  set ok : Nat → Nat → Bool := fun a b => decide (n ≤ total data a b) with hok
  have hext : ∀ i, i < bint.length → optMinExtend data n i (optWidth bint (bint.length - 1) i)
      = sigExtend ok (data.length - optWidth bint (bint.length - 1) i) i
          (optWidth bint (bint.length - 1) i) := by
    intro i hi
    have := hw1 i hi
    have := hw2 i
    exact optMinExtend_eq data n i _ (by omega) (by omega)
  have hout := opt_out (optMinExtend data n) bint hnd (by
    intro i j hi h
    rw [hext i hi] at h
    have h' := sigExtend_some h
    have := hw1 i hi
    have := hw2 i
    omega)
  set r := optLoop (optMinExtend data n) bint bint.length bint.length 0 [] with hr
  have hdesc := hout.desc
  have hres : groupOpt bint (some data) n
      = (setFlags bint.length r.reverse, !((reduceat data r.reverse).any (fun x => decide (x < n)))) := by
    unfold groupOpt
    simp only [if_pos hn, ← hr]
  have hd2 : Desc r data.length := by rw [← hlen]; exact hdesc
  have hsucc : (!((reduceat data r.reverse).any (fun x => decide (x < n)))) = true ↔
      ∀ e ∈ revEdges r data.length, n ≤ total data e.1 e.2 := by
    rw [reduceat_reverse data r hdesc.pw]; simp
  obtain ⟨s, t, hst⟩ : ∃ s t, r = s :: t := by
    cases h : r with
    | nil => exact absurd hdesc.last (by simp [h])
    | cons s t => exact ⟨s, t, rfl⟩
  have hclosed : ∀ e ∈ revEdges t s, e.1 < e.2 ∧ e.2 < data.length ∧ n ≤ total data e.1 e.2 ∧
      optWidth bint (bint.length - 1) e.1 < e.2 ∧
      ∀ c, optWidth bint (bint.length - 1) e.1 < c → c < e.2 → total data e.1 c < n := by
    rintro ⟨a, b⟩ he
    have h1 := hout.closed s t hst (a, b) he
    simp only at h1 ⊢
    have he' : (a, b) ∈ revEdges r data.length := by rw [hst]; simp [revEdges, he]
    have hlt := mem_revEdges_lt hd2.pw hd2.lt he'
    have hbs : b ≤ s := by
      rw [hst] at hd2
      by_cases ht : t = []
      · subst ht; simp [revEdges] at he
      · exact (mem_revEdges_lt (hd2.tail ht).pw (hd2.tail ht).lt he).2
    have hs : s < data.length := hd2.lt s (by simp [hst])
    rw [hext a (by omega)] at h1
    obtain ⟨h2, h3, h4, h5⟩ := sigExtend_some h1
    have hb1 : b - 1 + 1 = b := by omega
    rw [hb1] at h4
    refine ⟨hlt.1, by omega, by simpa [hok] using h4, by omega, ?_⟩
    intro c hc1 hc2
    have := h5 (c - 1) (by omega) (by omega)
    have hc : c - 1 + 1 = c := by omega
    rw [hc] at this
    simpa [hok] using this
  have hall : n ≤ total data 0 data.length → ∀ e ∈ revEdges r data.length, n ≤ total data e.1 e.2 := by
    intro htot e he
    rw [hst] at he
    simp only [revEdges, List.mem_cons] at he
    rcases he with rfl | he
    · simp only
      have hs : s < bint.length := hdesc.lt s (by simp [hst])
      rcases hout.tail s t hst with h | ⟨h, h'⟩ | ⟨b, h1, h2, h3, _⟩
      · rw [hext s hs] at h
        have := (sigExtend_some h).2.2.1
        have hx : bint.length - 1 + 1 = data.length := by omega
        rw [hx] at this
        simpa [hok] using this
      · subst h'
        have hs0 : s = 0 := by have := hdesc.last; rw [hst] at this; simpa using this
        rw [hs0]; exact htot
      · rw [hext s hs] at h3
        have := (sigExtend_some h3).2.2.1
        have hx : b - 1 + 1 = b := by omega
        rw [hx] at this
        have h4 : n ≤ total data s b := by simpa [hok] using this
        exact le_trans h4 (total_mono hpos (le_refl _) (by omega))
    · exact (hclosed e he).2.2.1
  rw [hres, hlen]
  simp only
  refine ⟨validFlags_setFlags hd2, ?_, ?_, ?_⟩
  · rw [hsucc]; exact ⟨fun h => total_zero_of_group hpos hd2 h, hall⟩
  · intro h a b hab
    exact hsucc.1 h (a, b) ((isGroup_setFlags hd2).1 hab)
  · intro a b hab hbn
    have he := (isGroup_setFlags hd2).1 hab
    rw [hst] at he
    simp only [revEdges, List.mem_cons, Prod.mk.injEq] at he
    rcases he with ⟨_, rfl⟩ | he
    · omega
    · obtain ⟨h1, h2, h3, h4, h5⟩ := hclosed (a, b) he
      simp only at h1 h2 h3 h4 h5
      exact ⟨h3, _, optimalEnd_optWidth hb (by omega), h4, h5⟩

example : groupOpt [2, 3, 1, 4, 4, 2, 5] (some ([1, 0, 3, 3, 1, 9, 1] : List ℤ)) 3
    = ([1, -1, -1, 1, -1, -1, -1], true) := by decide

end C04

end Elisa.Grouping
