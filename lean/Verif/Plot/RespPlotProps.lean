import Verif.Plot.RespPlot

/-!
# C107, C108: the plots of a response
-/

namespace Elisa.Plot.Resp

open Elisa

/-! ## The step curve -/

theorem some_getD {α : Type} (xs : List α) (d : α) {k : Nat} (h : k < xs.length) : xs[k]? = some (xs.getD k d) := by simp [h]


/-- **C107 (effective area).**  The effective area of a photon bin is the sum of the response over the channels of good quality, or zero if that is negative; it is refused exactly if
the number of flags is not the number of channels. -/
theorem C107_area (nchan : Nat) (matrix : List (List ℝ)) (g : List Bool) :
    (g.length ≠ nchan → effArea nchan matrix (some g) = .error .valueError) ∧
    (g.length = nchan → (∀ row ∈ matrix, row.length = nchan) → ∃ area, effArea nchan matrix (some g) = .ok area ∧ area.length = matrix.length ∧
      ∀ k, k < matrix.length → area.getD k 0 = max (∑ c ∈ (Finset.range nchan).filter fun c => g.getD c false = true, (matrix.getD k []).getD c 0) 0) := by
  constructor
  · intro h
    simp only [effArea, if_pos h]
  · intro h hrow
    refine ⟨matrix.map fun row => max (rowArea (some g) row) 0, by simp only [effArea, if_neg (not_not.2 h)], by simp, ?_⟩
    intro k hk
    have e : (matrix.map fun row => max (rowArea (some g) row) 0).getD k 0 = max (rowArea (some g) (matrix.getD k [])) 0 := by
      simp [hk]
    rw [e]
    congr 1
    have hl : (matrix.getD k []).length = g.length := by
      rw [h]
      apply hrow
      exact List.mem_of_getElem? (some_getD matrix [] hk)
    rw [← h]
    generalize matrix.getD k [] = row at hl
    unfold rowArea
    dsimp only
    clear e h hrow hk
    induction row generalizing g with
    | nil =>
      have : g = [] := by cases g with
        | nil => rfl
        | cons _ _ => simp at hl
      subst this
      simp
    | cons x row ih =>
      cases g with
      | nil => simp at hl
      | cons b g =>
        have ih' := ih g (by simpa using hl)
        simp only [List.zipWith_cons_cons, List.sum_cons, ih', List.length_cons, Finset.sum_filter, Finset.sum_range_succ', List.getD_cons_succ, List.getD_cons_zero]
        ring

/-- The height the curve should have over every photon bin. -/
def Shows (egrid area : List ℝ) (curve : List (ℝ × ℝ × ℝ)) : Prop := curve = List.zip egrid (List.zip egrid.tail area)

/-- **C107 (curve), partial.**  The curve runs over the photon bins in order, one height per bin; the last bin, and every bin whose area is that of the next one, is shown with its own area.
Missing: the other bins, see `C107_curve_refuted`. -/
theorem C107_curve_partial (egrid area : List ℝ) (hn : area ≠ []) (hlen : egrid.length = area.length + 1) :
    ∃ curve, drawArea egrid area = .ok curve ∧ curve.length = area.length ∧
      ∀ k, k < area.length → curve[k]? = some (egrid.getD k 0, egrid.getD (k + 1) 0, if k + 1 < area.length then area.getD (k + 1) 0 else area.getD k 0) := by
  obtain ⟨l, hl⟩ : ∃ l, area.getLast? = some l := by
    cases h : area.getLast? with
    | none => exact absurd (List.getLast?_eq_none_iff.1 h) hn
    | some l => exact ⟨l, rfl⟩
  refine ⟨stepPre egrid (area ++ [l]), by simp only [drawArea, hl], ?_, ?_⟩
  · simp [stepPre]
    omega
  · intro k hk
    have h1 : k < egrid.length := by omega
    have h2 : k + 1 < egrid.length := by omega
    have h3 : (area ++ [l])[k + 1]? = some (if k + 1 < area.length then area.getD (k + 1) 0 else area.getD k 0) := by
      by_cases hlt : k + 1 < area.length
      · rw [if_pos hlt, List.getElem?_append_left hlt, some_getD _ _ hlt]
      · have : k + 1 = area.length := by omega
        rw [if_neg hlt, List.getElem?_append_right (by omega), this]
        simp only [Nat.sub_self, List.getElem?_cons_zero]
        rw [List.getLast?_eq_getElem?] at hl
        have hk' : area.length - 1 = k := by omega
        rw [hk'] at hl
        rw [List.getD_eq_getElem?_getD, hl]
        rfl
    simp only [stepPre, List.getElem?_zip_eq_some]
    refine ⟨some_getD _ _ h1, ?_, ?_⟩
    · rw [List.getElem?_tail, some_getD _ _ h2]
    · rw [List.getElem?_tail, h3]

/-- **C107 (curve) fails.**  A bin is drawn with the area of the next bin: the curve is the effective area only if all bins have the same. -/
theorem C107_curve_refuted (egrid area : List ℝ) (hn : area ≠ []) (hlen : egrid.length = area.length + 1) (curve : List (ℝ × ℝ × ℝ)) (h : drawArea egrid area = .ok curve) :
    Shows egrid area curve ↔ ∀ k, k + 1 < area.length → area.getD k 0 = area.getD (k + 1) 0 := by
  obtain ⟨c, hc, hl, hk⟩ := C107_curve_partial egrid area hn hlen
  rw [h] at hc
  cases hc
  have hz : ∀ k, k < area.length → (List.zip egrid (List.zip egrid.tail area))[k]? = some (egrid.getD k 0, egrid.getD (k + 1) 0, area.getD k 0) := by
    intro k hka
    have h1 : k < egrid.length := by omega
    have h2 : k + 1 < egrid.length := by omega
    simp only [List.getElem?_zip_eq_some]
    exact ⟨some_getD _ _ h1, by rw [List.getElem?_tail, some_getD _ _ h2],
      some_getD _ _ hka⟩
  constructor
  · intro hs k hk1
    have e1 := hk k (by omega)
    unfold Shows at hs
    rw [hs, hz k (by omega), if_pos hk1] at e1
    simp only [Option.some.injEq, Prod.mk.injEq, true_and] at e1
    exact e1
  · intro hall
    unfold Shows
    apply List.ext_getElem?
    intro k
    by_cases hka : k < area.length
    · rw [hk k hka, hz k hka]
      split_ifs with h1
      · rw [hall k h1]
      · rfl
    · rw [List.getElem?_eq_none (by omega), List.getElem?_eq_none (by simp; omega)]

/-! ## Hatched ranges -/

/-- Bins in increasing order, gaps allowed. -/
def Ordered (emin emax : List ℝ) : Prop :=
  emin.length = emax.length ∧ (∀ k, k < emin.length → emin.getD k 0 < emax.getD k 0) ∧ ∀ k, k + 1 < emin.length → emax.getD k 0 ≤ emin.getD (k + 1) 0

/-- Bin `k` lies inside one of the ranges. -/
def InsideOf (emin emax : List ℝ) (ranges : List (ℝ × ℝ)) (k : Nat) : Prop := ∃ r ∈ ranges, r.1 ≤ emin.getD k 0 ∧ emax.getD k 0 ≤ r.2

theorem ordered_lt {emin emax : List ℝ} (h : Ordered emin emax) {i j : Nat} (hij : i < j) (hj : j < emin.length) : emax.getD i 0 ≤ emin.getD j 0 := by
  obtain ⟨-, h1, h2⟩ := h
  induction j with
  | zero => omega
  | succ j ih =>
    rcases Nat.lt_succ_iff_lt_or_eq.1 hij with hlt | rfl
    · exact (ih hlt (by omega)).trans ((h1 j (by omega)).le.trans (h2 j hj))
    · exact h2 i hj

theorem ordered_min {emin emax : List ℝ} (h : Ordered emin emax) {i j : Nat} (hij : i ≤ j) (hj : j < emin.length) : emin.getD i 0 ≤ emin.getD j 0 := by
  rcases hij.lt_or_eq with hlt | rfl
  · exact (h.2.1 i (by omega)).le.trans (ordered_lt h hlt hj)
  · exact le_rfl

theorem ordered_max {emin emax : List ℝ} (h : Ordered emin emax) {i j : Nat} (hij : i ≤ j) (hj : j < emin.length) : emax.getD i 0 ≤ emax.getD j 0 := by
  rcases hij.lt_or_eq with hlt | rfl
  · exact (ordered_lt h hlt hj).trans (h.2.1 j hj).le
  · exact le_rfl

theorem span_ok {emin emax : List ℝ} (h : Ordered emin emax) {r : ℝ × ℝ} {s : Nat × Nat} (hs : span emin emax r = .ok s) :
    s.1 ≤ s.2 ∧ s.2 < emin.length ∧ ∀ k, k < emin.length → ((r.1 ≤ emin.getD k 0 ∧ emax.getD k 0 ≤ r.2) ↔ s.1 ≤ k ∧ k ≤ s.2) := by
  unfold span at hs
  dsimp only at hs
  obtain ⟨idx, hidx⟩ : ∃ idx, idx = (List.range emin.length).filter fun k => r.1 ≤ emin.getD k 0 ∧ emax.getD k 0 ≤ r.2 := ⟨_, rfl⟩
  rw [← hidx] at hs
  cases h1 : idx.head? with
  | none => simp [h1] at hs
  | some a =>
    cases h2 : idx.getLast? with
    | none => simp [h1, h2] at hs
    | some b =>
      simp only [h1, h2, Except.ok.injEq] at hs
      subst hs
      have hmem : ∀ k, k ∈ idx ↔ k < emin.length ∧ r.1 ≤ emin.getD k 0 ∧ emax.getD k 0 ≤ r.2 := by
        intro k
        rw [hidx]
        simp
      have hsorted : idx.Pairwise (· < ·) := by
        rw [hidx]
        exact List.pairwise_lt_range.filter _
      have ha : a ∈ idx := List.mem_of_mem_head? h1
      have hb : b ∈ idx := List.mem_of_mem_getLast? h2
      have hale : ∀ k ∈ idx, a ≤ k := by
        cases idx with
        | nil => simp at ha
        | cons x xs =>
          simp only [List.head?_cons, Option.some.injEq] at h1
          subst h1
          intro k hk
          rcases List.mem_cons.1 hk with rfl | hk
          · exact le_rfl
          · exact (List.rel_of_pairwise_cons hsorted hk).le
      have hbge : ∀ k ∈ idx, k ≤ b := by
        intro k hk
        rw [← List.dropLast_append_getLast? b h2] at hsorted hk
        rcases List.mem_append.1 hk with hk | hk
        · exact ((List.pairwise_append.1 hsorted).2.2 k hk b (by simp)).le
        · simp at hk; omega
      obtain ⟨ha1, ha2, -⟩ := (hmem a).1 ha
      obtain ⟨hb1, -, hb3⟩ := (hmem b).1 hb
      refine ⟨hale b hb, hb1, fun k hk => ⟨fun hin => ?_, fun hin => ?_⟩⟩
      · have := (hmem k).2 ⟨hk, hin⟩
        exact ⟨hale k this, hbge k this⟩
      · exact ⟨ha2.trans (ordered_min h hin.1 hk), (ordered_max h hin.2 hb1).trans hb3⟩

theorem mem_between {emin emax : List ℝ} {spans : List (Nat × Nat)} {x : ℝ × ℝ} (hx : x ∈ between emin emax spans) :
    ∃ pre s t post, spans = pre ++ s :: t :: post ∧ x = (emax.getD s.2 0, emin.getD t.1 0) := by
  induction spans with
  | nil => simp [between] at hx
  | cons s rest ih =>
    cases rest with
    | nil => simp [between] at hx
    | cons t rest =>
      rcases List.mem_cons.1 hx with rfl | hx
      · exact ⟨[], s, t, rest, rfl, rfl⟩
      · obtain ⟨pre, s', t', post, he, hx'⟩ := ih hx
        exact ⟨s :: pre, s', t', post, by rw [he]; rfl, hx'⟩

theorem between_cover (emin emax : List ℝ) (k : Nat) (spans : List (Nat × Nat)) (s : Nat × Nat) (h : spans.head? = some s) (hk : s.1 ≤ k)
    (hno : ∀ t ∈ spans, ¬ (t.1 ≤ k ∧ k ≤ t.2)) : (∃ u t : Nat × Nat, u ∈ spans ∧ t ∈ spans ∧ (emax.getD u.2 0, emin.getD t.1 0) ∈ between emin emax spans ∧ u.2 < k ∧ k < t.1) ∨
      ∃ t, spans.getLast? = some t ∧ t.2 < k := by
  induction spans generalizing s with
  | nil => simp at h
  | cons x rest ih =>
    simp only [List.head?_cons, Option.some.injEq] at h
    subst h
    have hx : x.2 < k := by
      by_contra hc
      exact hno x (by simp) ⟨hk, by omega⟩
    cases rest with
    | nil => exact Or.inr ⟨x, rfl, hx⟩
    | cons t rest =>
      by_cases hlt : k < t.1
      · exact Or.inl ⟨x, t, by simp, by simp, by simp [between], hx, hlt⟩
      · rcases ih t rfl (by omega) fun u hu => hno u (List.mem_cons_of_mem _ hu) with ⟨u, v, hu, hv, hm, h1, h2⟩ | ⟨v, hv, h1⟩
        · exact Or.inl ⟨u, v, List.mem_cons_of_mem _ hu, List.mem_cons_of_mem _ hv, List.mem_cons_of_mem _ hm, h1, h2⟩
        · exact Or.inr ⟨v, by simpa using hv, h1⟩

theorem mapM_span {emin emax : List ℝ} {noticed : List (ℝ × ℝ)} {spans : List (Nat × Nat)} (h : noticed.mapM (span emin emax) = .ok spans) :
    List.Forall₂ (fun r s => span emin emax r = .ok s) noticed spans := by
  induction noticed generalizing spans with
  | nil =>
    simp only [List.mapM_nil, pure, Except.pure, Except.ok.injEq] at h
    subst h
    exact .nil
  | cons r rest ih =>
    rw [List.mapM_cons] at h
    cases hr : span emin emax r with
    | error e => simp [hr, bind, Except.bind] at h
    | ok s =>
      cases hs : rest.mapM (span emin emax) with
      | error e => simp [hr, hs, bind, Except.bind] at h
      | ok ss =>
        simp only [hr, hs, bind, Except.bind, pure, Except.pure, Except.ok.injEq] at h
        subst h
        exact .cons hr (ih hs)

theorem spans_sorted {emin emax : List ℝ} (h : Ordered emin emax) {noticed : List (ℝ × ℝ)} {spans : List (Nat × Nat)} (hn : noticed.Pairwise fun r s => r.2 < s.1)
    (hf : List.Forall₂ (fun r s => span emin emax r = .ok s) noticed spans) : spans.Pairwise fun s t => s.2 < t.1 := by
  induction hf with
  | nil => exact .nil
  | @cons r s rs ss hr hrest ih =>
    rw [List.pairwise_cons] at hn ⊢
    refine ⟨fun t ht => ?_, ih hn.2⟩
    obtain ⟨r', hr', hrt⟩ : ∃ r' ∈ rs, span emin emax r' = .ok t := by
      clear ih hn
      induction hrest with
      | nil => simp at ht
      | @cons r1 s1 rs1 ss1 h1 _ ih1 =>
        rcases List.mem_cons.1 ht with rfl | ht
        · exact ⟨r1, by simp, h1⟩
        · obtain ⟨r', hr', hx⟩ := ih1 ht
          exact ⟨r', List.mem_cons_of_mem _ hr', hx⟩
    obtain ⟨a1, a2, a3⟩ := span_ok h hr
    obtain ⟨b1, b2, b3⟩ := span_ok h hrt
    have e1 := ((a3 s.2 a2).2 ⟨a1, le_rfl⟩).2
    have e2 := ((b3 t.1 (by omega)).2 ⟨le_rfl, b1⟩).1
    have e3 := hn.1 r' hr'
    by_contra hc
    have := ordered_max h (i := t.1) (j := s.2) (by omega) a2
    have h4 := h.2.1 t.1 (by omega)
    linarith

theorem inside_iff {emin emax : List ℝ} (h : Ordered emin emax) {noticed : List (ℝ × ℝ)} {spans : List (Nat × Nat)}
    (hf : List.Forall₂ (fun r s => span emin emax r = .ok s) noticed spans) {k : Nat} (hk : k < emin.length) :
    InsideOf emin emax noticed k ↔ ∃ s ∈ spans, s.1 ≤ k ∧ k ≤ s.2 := by
  unfold InsideOf
  induction hf with
  | nil => simp
  | @cons r s rs ss hr _ ih =>
    have := (span_ok h hr).2.2 k hk
    simp only [List.mem_cons, exists_eq_or_imp, this, ih]

theorem spans_bound {emin emax : List ℝ} (h : Ordered emin emax) {noticed : List (ℝ × ℝ)} {spans : List (Nat × Nat)}
    (hf : List.Forall₂ (fun r s => span emin emax r = .ok s) noticed spans) : ∀ s ∈ spans, s.1 ≤ s.2 ∧ s.2 < emin.length := by
  induction hf with
  | nil => simp
  | @cons r s rs ss hr _ ih =>
    intro t ht
    rcases List.mem_cons.1 ht with rfl | ht
    · exact ⟨(span_ok h hr).1, (span_ok h hr).2.1⟩
    · exact ih t ht

/-- What hatching should do: a bin inside a noticed range is free of it, every other bin is covered. -/
def Hatched (emin emax : List ℝ) (noticed hatch : List (ℝ × ℝ)) : Prop :=
  ∀ k, k < emin.length → (InsideOf emin emax noticed k → ∀ s ∈ hatch, emax.getD k 0 ≤ s.1 ∨ s.2 ≤ emin.getD k 0) ∧
    (¬ InsideOf emin emax noticed k → ∃ s ∈ hatch, s.1 ≤ emin.getD k 0 ∧ emax.getD k 0 ≤ s.2)

theorem ignored_hatched (emin emax : List ℝ) (h : Ordered emin emax) (noticed : List (ℝ × ℝ)) (hn : noticed.Pairwise fun r s => r.2 < s.1) (hatch : List (ℝ × ℝ))
    (ho : ignored emin emax noticed = .ok hatch) : Hatched emin emax noticed hatch := by
  unfold ignored at ho
  cases hm : noticed.mapM (span emin emax) with
  | error e => simp [hm, bind, Except.bind] at ho
  | ok spans =>
    simp only [hm, bind, Except.bind] at ho
    cases h1 : spans.head? with
    | none => simp [h1] at ho
    | some s0 =>
      cases h2 : spans.getLast? with
      | none => simp [h1, h2] at ho
      | some t0 =>
        simp only [h1, h2, pure, Except.pure, Except.ok.injEq] at ho
        have hf := mapM_span hm
        have hsort := spans_sorted h hn hf
        have hbd := spans_bound h hf
        have hs0 : s0 ∈ spans := List.mem_of_mem_head? h1
        have ht0 : t0 ∈ spans := List.mem_of_mem_getLast? h2
        have hfirst : ∀ s ∈ spans, s0.1 ≤ s.1 := by
          cases spans with
          | nil => simp at hs0
          | cons x xs =>
            simp only [List.head?_cons, Option.some.injEq] at h1
            subst h1
            intro s hs
            rcases List.mem_cons.1 hs with rfl | hs'
            · exact le_rfl
            · have := List.rel_of_pairwise_cons hsort hs'
              have := hbd x (by simp)
              omega
        have hlast : ∀ s ∈ spans, s.2 ≤ t0.2 := by
          intro s hs
          rw [← List.dropLast_append_getLast? t0 h2] at hsort hs
          rcases List.mem_append.1 hs with hs' | hs'
          · have := (List.pairwise_append.1 hsort).2.2 s hs' t0 (by simp)
            have := hbd t0 ht0
            omega
          · simp at hs'; rw [hs']
        have hn0 : emax.length - 1 < emin.length := by
          have := (hbd s0 hs0).2
          have := h.1
          omega
        intro k hk
        rw [inside_iff h hf hk]
        constructor
        · rintro ⟨s, hs, hs1, hs2⟩ x hx
          rw [← ho] at hx
          rcases List.mem_append.1 hx with hx | hx
          · rcases List.mem_append.1 hx with hx | hx
            · unfold before at hx
              split_ifs at hx with hc
              · simp at hx
                subst hx
                exact Or.inr (ordered_min h ((hfirst s hs).trans hs1) hk)
              · simp at hx
            · obtain ⟨pre, u, v, post, he, rfl⟩ := mem_between hx
              rw [he] at hs hsort hbd
              have hu := hbd u (by simp)
              have hv := hbd v (by simp)
              rw [List.pairwise_append] at hsort
              have huv : u.2 < v.1 := List.rel_of_pairwise_cons hsort.2.1 (by simp)
              rcases List.mem_append.1 hs with hs' | hs'
              · left
                have := hsort.2.2 s hs' u (by simp)
                exact ordered_max h (by omega) hu.2
              · rcases List.mem_cons.1 hs' with rfl | hs'
                · left
                  exact ordered_max h hs2 hu.2
                · right
                  rcases List.mem_cons.1 hs' with rfl | hs''
                  · exact ordered_min h hs1 hk
                  · have := List.rel_of_pairwise_cons (List.pairwise_cons.1 hsort.2.1).2 hs''
                    exact ordered_min h (by omega) hk
          · unfold after at hx
            split_ifs at hx with hc
            · simp at hx
              subst hx
              exact Or.inl (ordered_max h (hs2.trans (hlast s hs)) (hbd t0 ht0).2)
            · simp at hx
        · intro hno
          push Not at hno
          rw [← ho]
          by_cases hlt : k < s0.1
          · have hpos : emin.getD s0.1 0 > emin.getD 0 0 := by
              have h5 := ordered_lt h hlt (by have := hbd s0 hs0; omega)
              have h6 := h.2.1 k hk
              have h7 := ordered_min h (Nat.zero_le k) hk
              linarith
            refine ⟨(emin.getD 0 0, emin.getD s0.1 0), ?_, ordered_min h (Nat.zero_le k) hk, ordered_lt h hlt (by have := hbd s0 hs0; omega)⟩
            simp only [List.mem_append]
            left; left
            unfold before
            rw [if_pos hpos]
            simp
          · rcases between_cover emin emax k spans s0 h1 (by omega) (fun t ht hc => absurd hc.2 (by have := hno t ht hc.1; omega)) with ⟨u, v, hu, hv, hmem, hu2, hv1⟩ | ⟨t, ht, ht2⟩
            · refine ⟨_, by simp only [List.mem_append]; exact Or.inl (Or.inr hmem), ordered_lt h hu2 hk, ordered_lt h hv1 ?_⟩
              have := hbd v hv
              omega
            · rw [h2] at ht
              cases ht
              have hlen := h.1
              refine ⟨(emax.getD t0.2 0, emax.getD (emax.length - 1) 0), ?_, ordered_lt h ht2 hk, ordered_max h (by omega) hn0⟩
              simp only [List.mem_append]
              right
              unfold after
              have h5 := ordered_lt h ht2 hk
              have h6 := h.2.1 k hk
              have h7 := ordered_max h (i := k) (j := emax.length - 1) (by omega) hn0
              rw [if_pos (by linarith)]
              simp

/-- **C107 (hatching), partial.**  For photon bins in increasing order and noticed ranges that are in order and apart, a photon bin inside a noticed range is not hatched and every other bin
is.  The call succeeds exactly if every noticed range contains a photon bin.  Missing: the case it does not, see `C107_narrow_refuted`. -/
theorem C107_hatch_partial (emin emax : List ℝ) (h : Ordered emin emax) (noticed : List (ℝ × ℝ)) (h0 : noticed ≠ []) (hn : noticed.Pairwise fun r s => r.2 < s.1) :
    ((∃ hatch, ignored emin emax noticed = .ok hatch) ↔ ∀ r ∈ noticed, ∃ k, k < emin.length ∧ r.1 ≤ emin.getD k 0 ∧ emax.getD k 0 ≤ r.2) ∧
    ∀ hatch, ignored emin emax noticed = .ok hatch → Hatched emin emax noticed hatch := by
  refine ⟨?_, fun hatch ho => ignored_hatched emin emax h noticed hn hatch ho⟩
  have hspan : ∀ r, (∃ s, span emin emax r = .ok s) ↔ ∃ k, k < emin.length ∧ r.1 ≤ emin.getD k 0 ∧ emax.getD k 0 ≤ r.2 := by
    intro r
    constructor
    · rintro ⟨s, hs⟩
      obtain ⟨a1, a2, a3⟩ := span_ok h hs
      exact ⟨s.2, a2, (a3 s.2 a2).2 ⟨a1, le_rfl⟩⟩
    · rintro ⟨k, hk⟩
      unfold span
      dsimp only
      have hmem : k ∈ (List.range emin.length).filter fun k => r.1 ≤ emin.getD k 0 ∧ emax.getD k 0 ≤ r.2 := by
        simpa using hk
      cases h1 : ((List.range emin.length).filter fun k => decide (r.1 ≤ emin.getD k 0 ∧ emax.getD k 0 ≤ r.2)).head? with
      | none => rw [List.head?_eq_none_iff] at h1; rw [h1] at hmem; simp at hmem
      | some a =>
        cases h2 : ((List.range emin.length).filter fun k => decide (r.1 ≤ emin.getD k 0 ∧ emax.getD k 0 ≤ r.2)).getLast? with
        | none => rw [List.getLast?_eq_none_iff] at h2; rw [h2] at hmem; simp at hmem
        | some b => exact ⟨(a, b), rfl⟩
  have hmapM : ∀ l : List (ℝ × ℝ), (∃ ss, l.mapM (span emin emax) = .ok ss) ↔ ∀ r ∈ l, ∃ s, span emin emax r = .ok s := by
    intro l
    induction l with
    | nil => simp [pure, Except.pure]
    | cons r l ih =>
      rw [List.mapM_cons]
      cases hr : span emin emax r with
      | error e => simp [bind, Except.bind, hr]
      | ok s =>
        cases hs : l.mapM (span emin emax) with
        | error e =>
          have : ¬ ∃ ss, l.mapM (span emin emax) = .ok ss := by rw [hs]; simp
          rw [ih] at this
          simp only [bind, Except.bind]
          exact iff_of_false (by rintro ⟨_, h⟩; cases h) (fun h => this fun r hr => h r (List.mem_cons_of_mem _ hr))
        | ok ss =>
          have : ∃ ss, l.mapM (span emin emax) = .ok ss := ⟨ss, hs⟩
          rw [ih] at this
          simp only [bind, Except.bind, pure, Except.pure]
          refine iff_of_true ⟨_, rfl⟩ fun r' hr' => ?_
          rcases List.mem_cons.1 hr' with rfl | hr'
          · exact ⟨s, hr⟩
          · exact this r' hr'
  rw [← forall₂_congr fun r _ => hspan r, ← hmapM]
  unfold ignored
  constructor
  · rintro ⟨hatch, ho⟩
    cases hm : noticed.mapM (span emin emax) with
    | error e => simp [hm, bind, Except.bind] at ho
    | ok ss => exact ⟨ss, rfl⟩
  · rintro ⟨ss, hss⟩
    have hf := mapM_span hss
    simp only [hss, bind, Except.bind]
    cases ss with
    | nil => cases hf; exact absurd rfl h0
    | cons s ss =>
      obtain ⟨t, ht⟩ : ∃ t, (s :: ss).getLast? = some t := ⟨_, List.getLast?_eq_some_getLast (by simp)⟩
      simp only [List.head?_cons, ht]
      exact ⟨_, rfl⟩

/-- **C107 (hatching) fails for a noticed range within a photon bin**: the call raises `IndexError`. -/
theorem C107_narrow_refuted (emin emax : List ℝ) (h : Ordered emin emax) (noticed : List (ℝ × ℝ)) (h0 : noticed ≠ []) (hn : noticed.Pairwise fun r s => r.2 < s.1)
    (r : ℝ × ℝ) (hr : r ∈ noticed) (hnone : ∀ k, k < emin.length → ¬ (r.1 ≤ emin.getD k 0 ∧ emax.getD k 0 ≤ r.2)) : ignored emin emax noticed = .error .indexError := by
  have hno : ¬ ∃ hatch, ignored emin emax noticed = .ok hatch := by
    rw [(C107_hatch_partial emin emax h noticed h0 hn).1]
    push Not
    exact ⟨r, hr, fun k hk h1 => lt_of_not_ge fun h2 => hnone k hk ⟨h1, h2⟩⟩
  have herr : ∀ r e, span emin emax r = .error e → e = .indexError := by
    intro r e he
    unfold span at he
    dsimp only at he
    split at he
    · cases he
    · cases he; rfl
  have hmerr : ∀ (l : List (ℝ × ℝ)) e, l.mapM (span emin emax) = .error e → e = .indexError := by
    intro l
    induction l with
    | nil => intro e he; simp [pure, Except.pure] at he
    | cons r l ih =>
      intro e he
      rw [List.mapM_cons] at he
      cases hs : span emin emax r with
      | error e' => simp [hs, bind, Except.bind] at he; subst he; exact herr r _ hs
      | ok s =>
        cases hm : l.mapM (span emin emax) with
        | error e' => simp [hs, hm, bind, Except.bind] at he; subst he; exact ih _ hm
        | ok ss => simp [hs, hm, bind, Except.bind, pure, Except.pure] at he
  unfold ignored at hno ⊢
  cases hm : noticed.mapM (span emin emax) with
  | error e => simp only [bind, Except.bind]; rw [hmerr _ _ hm]
  | ok ss =>
    simp only [hm, bind, Except.bind] at hno ⊢
    split at hno
    · exact absurd ⟨_, rfl⟩ hno
    · rfl

example : Ordered [1, 2, 4] [2, 4, 8] ∧ ([(1, 2), (4, 8)] : List (ℝ × ℝ)).Pairwise (fun r s => r.2 < s.1) ∧
    (∀ r ∈ ([(1, 2), (4, 8)] : List (ℝ × ℝ)), ∃ k, k < 3 ∧ r.1 ≤ ([1, 2, 4] : List ℝ).getD k 0 ∧ ([2, 4, 8] : List ℝ).getD k 0 ≤ r.2) ∧
    ¬ InsideOf [1, 2, 4] [2, 4, 8] [(1, 2), (4, 8)] 1 := by
  refine ⟨⟨rfl, ?_, ?_⟩, ?_, ?_, ?_⟩
  · intro k hk
    simp at hk
    interval_cases k <;> norm_num
  · intro k hk
    have hk' : k < 2 := by simp at hk; omega
    interval_cases k <;> norm_num
  · norm_num
  · intro r hr
    simp at hr
    rcases hr with rfl | rfl
    · exact ⟨0, by norm_num⟩
    · exact ⟨2, by norm_num⟩
  · rintro ⟨r, hr, h1, h2⟩
    simp at hr
    rcases hr with rfl | rfl
    · norm_num at h2
    · norm_num at h1

example : ∃ curve, drawArea [1, 2, 4] [10, 20] = .ok curve ∧ ¬ Shows [1, 2, 4] [10, 20] curve := by
  refine ⟨_, rfl, ?_⟩
  rw [C107_curve_refuted [1, 2, 4] [10, 20] (by simp) rfl _ rfl]
  intro h
  have := h 0 (by norm_num)
  norm_num at this

/-! ## The mesh of the matrix -/

/-- There is a gap in front of channel `k`. -/
def GapBefore (emin emax : List ℝ) (k : Nat) : Prop := 1 ≤ k ∧ emin.getD k 0 ≠ emax.getD (k - 1) 0

open Classical in
/-- The cells that should be drawn: every channel over its own range with its own column, and an empty cell over every gap. -/
noncomputable def meshOf {α : Type} (emin emax : List ℝ) (cols : List α) : List (ℝ × ℝ × Option α) :=
  (List.range emin.length).flatMap fun k =>
    (if GapBefore emin emax k then [(emax.getD (k - 1) 0, emin.getD k 0, none)] else []) ++ [(emin.getD k 0, emax.getD k 0, cols[k]?)]

open Classical in
theorem insertAt_flat {α : Type} (emin emax : List ℝ) (f : Nat → α) (xs : List α) (k : Nat) (hk : k + xs.length = emin.length) (d : α) :
    insertAt k xs ((gaps emin emax).map fun i => (i + 1, f i)) =
      (List.range xs.length).flatMap fun j => (if GapBefore emin emax (k + j) then [f (k + j - 1)] else []) ++ [xs.getD j d] := by
  have hfil : ∀ m, m ≤ emin.length → ((((gaps emin emax).map fun i => (i + 1, f i)).filter fun p => p.1 = m).map (·.2)) =
      if GapBefore emin emax m ∧ m < emin.length then [f (m - 1)] else [] := by
    intro m hm
    rw [List.filter_map, List.map_map]
    have hnd : (gaps emin emax).Nodup := List.Nodup.filter _ List.nodup_range
    have hmem : ∀ i, i ∈ gaps emin emax ↔ i + 1 < emin.length ∧ emin.getD (i + 1) 0 ≠ emax.getD i 0 := by
      intro i
      unfold gaps
      simp only [List.mem_filter, List.mem_range, decide_eq_true_eq, ne_eq, sub_eq_zero]
      constructor
      · rintro ⟨h1, h2⟩; exact ⟨by omega, h2⟩
      · rintro ⟨h1, h2⟩; exact ⟨by omega, h2⟩
    by_cases hc : GapBefore emin emax m ∧ m < emin.length
    · rw [if_pos hc]
      obtain ⟨⟨h1, h2⟩, h3⟩ := hc
      have hin : m - 1 ∈ gaps emin emax := by
        rw [hmem, show m - 1 + 1 = m by omega]
        exact ⟨h3, h2⟩
      have he : (gaps emin emax).filter ((fun p : Nat × α => decide (p.1 = m)) ∘ fun i => (i + 1, f i)) = (gaps emin emax).filter fun i => i == m - 1 := by
        apply List.filter_congr
        intro i _
        simp only [Function.comp_apply, beq_eq_decide]
        congr 1
        apply propext
        omega
      rw [he, List.filter_beq, List.count_eq_one_of_mem hnd hin]
      rfl
    · rw [if_neg hc]
      simp only [List.map_eq_nil_iff, List.filter_eq_nil_iff, Function.comp_apply, decide_eq_true_eq]
      intro i hi hm'
      rw [hmem] at hi
      apply hc
      subst hm'
      exact ⟨⟨by omega, by simpa using hi.2⟩, hi.1⟩
  induction xs generalizing k with
  | nil =>
    simp only [insertAt]
    rw [hfil k (by simp at hk; omega), if_neg (by simp at hk; omega)]
    simp
  | cons x xs ih =>
    simp only [List.length_cons] at hk
    simp only [insertAt]
    rw [hfil k (by omega), ih (k + 1) (by omega)]
    simp only [List.length_cons, List.range_succ_eq_map, List.flatMap_cons, List.flatMap_map, Nat.add_zero, List.getD_cons_zero, List.getD_cons_succ, List.append_assoc,
      List.singleton_append]
    congr 1
    · by_cases hg : GapBefore emin emax k
      · rw [if_pos hg, if_pos ⟨hg, by omega⟩]
      · rw [if_neg hg, if_neg (fun h => hg h.1)]
    · congr 1
      apply List.flatMap_congr
      intro j _
      rw [show k + 1 + j = k + (j + 1) by omega]

theorem zip_snoc {α : Type} (xs : List ℝ) (e y : ℝ) (cs : List α) (c : α) (h : cs.length = xs.length) :
    List.zip (xs ++ [e, y]) (List.zip (xs ++ [e, y]).tail (cs ++ [c])) = List.zip (xs ++ [e]) (List.zip (xs ++ [e]).tail cs) ++ [(e, y, c)] := by
  induction xs generalizing cs with
  | nil =>
    cases cs with
    | nil => rfl
    | cons _ _ => simp at h
  | cons x xs ih =>
    cases cs with
    | nil => simp at h
    | cons d cs =>
      have := ih cs (by simpa using h)
      cases xs with
      | nil =>
        cases cs with
        | nil => rfl
        | cons _ _ => simp at h
      | cons x' xs => simpa using this

open Classical in
/-- **C108 (mesh).**  Whatever gaps there are between the channels, every channel is drawn over its own energy range with its own column of the response, and gaps are left empty. -/
theorem C108_cells {α : Type} (emin emax : List ℝ) (cols : List α) (h0 : emin ≠ []) (h1 : emax.length = emin.length) (h2 : cols.length = emin.length) :
    cells emin emax cols = meshOf emin emax cols := by
  have hA : eminIns emin emax = (List.range emin.length).flatMap fun j => (if GapBefore emin emax j then [emax.getD (j - 1) 0] else []) ++ [emin.getD j 0] := by
    unfold eminIns
    rw [insertAt_flat emin emax (fun i => emax.getD i 0) emin 0 (by simp) 0]
    simp only [Nat.zero_add]
  have hC : colsIns emin emax cols = (List.range emin.length).flatMap fun j => (if GapBefore emin emax j then [none] else []) ++ [cols[j]?] := by
    unfold colsIns
    rw [insertAt_flat emin emax (fun _ => none) (cols.map some) 0 (by simpa using h2) none]
    simp only [Nat.zero_add, List.length_map, h2]
    apply List.flatMap_congr
    intro j hj
    have hj' : j < cols.length := by rw [h2]; exact List.mem_range.1 hj
    simp [hj']
  have hE : (emaxIns emin emax).getLast?.toList = [emax.getD (emin.length - 1) 0] := by
    unfold emaxIns
    rw [insertAt_flat emin emax (fun i => (eminIns emin emax).getD (i + 1) 0) emax 0 (by omega) 0]
    obtain ⟨n, hn⟩ : ∃ n, emax.length = n + 1 := ⟨emax.length - 1, by have := List.length_pos_iff.2 h0; omega⟩
    rw [hn, List.range_succ, List.flatMap_append]
    simp only [List.flatMap_cons, List.flatMap_nil, List.append_nil, ← List.append_assoc, List.getLast?_concat, Option.toList_some]
    rw [show emin.length - 1 = n by omega]
  unfold cells meshOf
  dsimp only
  rw [hA, hC, hE]
  obtain ⟨n, hn⟩ : ∃ n, emin.length = n + 1 := ⟨emin.length - 1, by have := List.length_pos_iff.2 h0; omega⟩
  rw [hn]
  simp only [Nat.add_sub_cancel]
  clear hA hC hE hn
  have hlenEq : ∀ m, ((List.range m).flatMap fun j => (if GapBefore emin emax j then [none] else []) ++ [cols[j]?]).length =
      ((List.range m).flatMap fun j => (if GapBefore emin emax j then [emax.getD (j - 1) 0] else []) ++ [emin.getD j 0]).length := by
    intro m
    induction m with
    | zero => rfl
    | succ m ih =>
      rw [List.range_succ, List.flatMap_append, List.flatMap_append, List.length_append, List.length_append, ih]
      by_cases hg : GapBefore emin emax m <;> simp [hg]
  induction n with
  | zero =>
    have hg : ¬ GapBefore emin emax 0 := fun h => by have := h.1; omega
    simp [List.range_succ, hg]
  | succ n ih =>
    have hl := hlenEq (n + 1)
    rw [List.range_succ (n := n + 1)]
    simp only [List.flatMap_append, List.flatMap_cons, List.flatMap_nil, List.append_nil]
    rw [← ih]
    obtain ⟨A, hA⟩ : ∃ A, A = (List.range (n + 1)).flatMap fun j => (if GapBefore emin emax j then [emax.getD (j - 1) 0] else []) ++ [emin.getD j 0] := ⟨_, rfl⟩
    obtain ⟨C, hC⟩ : ∃ C, C = (List.range (n + 1)).flatMap fun j => (if GapBefore emin emax j then [none] else []) ++ [cols[j]?] := ⟨_, rfl⟩
    rw [← hA, ← hC] at hl ⊢
    by_cases hg : GapBefore emin emax (n + 1)
    · rw [if_pos hg, if_pos hg, if_pos hg]
      have e1 := zip_snoc (A ++ [emax.getD n 0]) (emin.getD (n + 1) 0) (emax.getD (n + 1) 0) (C ++ [none]) (cols[n + 1]?) (by simp [hl])
      have e2 := zip_snoc A (emax.getD n 0) (emin.getD (n + 1) 0) C none hl
      simp only [List.append_assoc, List.cons_append, List.nil_append, Nat.add_sub_cancel] at e1 e2 ⊢
      rw [e1, e2]
      simp
    · rw [if_neg hg, if_neg hg, if_neg hg]
      have he : emin.getD (n + 1) 0 = emax.getD n 0 := by
        by_contra hc
        exact hg ⟨by omega, hc⟩
      have e1 := zip_snoc A (emax.getD n 0) (emax.getD (n + 1) 0) C (cols[n + 1]?) hl
      rw [he]
      simp only [List.append_assoc, List.cons_append, List.nil_append] at e1 ⊢
      exact e1

theorem keepGood_eq {α : Type} (g : List Bool) (xs : List α) (d : α) (h : g.length = xs.length) :
    keepGood g xs = ((List.range xs.length).filter fun k => g.getD k false).map fun k => xs.getD k d := by
  unfold keepGood
  induction xs generalizing g with
  | nil => simp
  | cons x xs ih =>
    cases g with
    | nil => simp at h
    | cons b g =>
      have := ih g (by simpa using h)
      simp only [List.zip_cons_cons, List.filterMap_cons, this, List.length_cons, List.range_succ_eq_map, List.filter_cons, List.filter_map, List.getD_cons_zero]
      cases b <;> simp [List.map_map, Function.comp_def]

/-- The good channels, in order. -/
def goodIdx (g : List Bool) : List Nat := (List.range g.length).filter fun k => g.getD k false

/-- **C108 (good channels).**  With flags of good quality the plot is that of the response restricted to the good channels; it is refused exactly if the number of flags is not the number of
channels.  A run of bad channels becomes a gap. -/
theorem C108_good {α : Type} (d : α) (g : List Bool) (emin emax : List ℝ) (cols : List α) (h1 : emin.length = cols.length) (h2 : emax.length = cols.length) :
    (g.length ≠ cols.length → meshCells (some g) emin emax cols = .error .valueError) ∧
    (g.length = cols.length → goodIdx g ≠ [] → meshCells (some g) emin emax cols =
      .ok (meshOf ((goodIdx g).map fun k => emin.getD k 0) ((goodIdx g).map fun k => emax.getD k 0) ((goodIdx g).map fun k => cols.getD k d))) := by
  constructor
  · intro h
    simp only [meshCells, if_pos h]
  · intro h hne
    simp only [meshCells, if_neg (not_not.2 h)]
    rw [keepGood_eq g emin 0 (by omega), keepGood_eq g emax 0 (by omega), keepGood_eq g cols d h]
    have e : ∀ m, m = cols.length → ((List.range m).filter fun k => g.getD k false) = goodIdx g := by
      intro m hm
      unfold goodIdx
      rw [hm, h]
    rw [e _ h1, e _ h2, e _ rfl, C108_cells _ _ _ (by simpa using hne) (by simp) (by simp)]

example : goodIdx [true, false, true] = [0, 2] := by decide

/-- **C108 (hatching), partial.**  If the channels follow each other without a gap, a channel inside a noticed range is not hatched and every other channel is.  Missing: channels with gaps,
see `C108_hatch_refuted`. -/
theorem C108_hatch_partial (emin emax : List ℝ) (h : Ordered emin emax) (hg : ∀ k, k + 1 < emin.length → emin.getD (k + 1) 0 = emax.getD k 0)
    (noticed : List (ℝ × ℝ)) (hn : noticed.Pairwise fun r s => r.2 < s.1) (hatch : List (ℝ × ℝ)) (ho : ignoredMatrix emin emax noticed = .ok hatch) :
    Hatched emin emax noticed hatch := by
  have hgaps : gaps emin emax = [] := by
    unfold gaps
    rw [List.filter_eq_nil_iff]
    intro k hk
    rw [List.mem_range] at hk
    have := hg k (by omega)
    simp only [decide_eq_true_eq, not_not, this, sub_self]
  have hins : ∀ (xs : List ℝ) k, insertAt k xs [] = xs := by
    intro xs
    induction xs with
    | nil => intro k; simp [insertAt]
    | cons x xs ih => intro k; simp [insertAt, ih]
  unfold ignoredMatrix eminIns emaxIns at ho
  rw [hgaps] at ho
  simp only [List.map_nil, hins] at ho
  exact ignored_hatched emin emax h noticed hn hatch ho

/-- **C108 (hatching) fails with gaps.**  Four channels 1–2, 3–4, 5–6, 6–7 keV and the noticed range 1–4 keV: the upper edge of the second gap is taken from the wrong channel, and the noticed
channel 3–4 keV is hatched. -/
theorem C108_hatch_refuted : ∃ (emin emax : List ℝ) (noticed hatch : List (ℝ × ℝ)), Ordered emin emax ∧ ignoredMatrix emin emax noticed = .ok hatch ∧
    ¬ Hatched emin emax noticed hatch := by
  have hg : gaps [1, 3, 5, 6] [2, 4, 6, 7] = [0, 1] := by
    simp only [gaps, List.length_cons, List.length_nil]
    norm_num [List.range_succ, List.filter_cons]
  have h1 : eminIns [1, 3, 5, 6] [2, 4, 6, 7] = [1, 2, 3, 4, 5, 6] := by
    unfold eminIns
    rw [hg]
    simp [insertAt]
  have h2 : emaxIns [1, 3, 5, 6] [2, 4, 6, 7] = [2, 2, 4, 3, 6, 7] := by
    unfold emaxIns
    rw [h1, hg]
    simp [insertAt]
  have hs : span [1, 2, 3, 4, 5, 6] [2, 2, 4, 3, 6, 7] (1, 4) = .ok (0, 3) := by
    have : ((List.range 6).filter fun k => (1 : ℝ) ≤ ([1, 2, 3, 4, 5, 6] : List ℝ).getD k 0 ∧ ([2, 2, 4, 3, 6, 7] : List ℝ).getD k 0 ≤ 4) = [0, 1, 2, 3] := by
      norm_num [List.range_succ, List.filter_cons]
    unfold span
    simp only [List.length_cons, List.length_nil, Nat.zero_add, Nat.reduceAdd]
    rw [this]
    rfl
  refine ⟨[1, 3, 5, 6], [2, 4, 6, 7], [(1, 4)], [(3, 7)], ⟨rfl, ?_, ?_⟩, ?_, ?_⟩
  · intro k hk
    simp at hk
    interval_cases k <;> norm_num
  · intro k hk
    have hk' : k < 3 := by simp at hk; omega
    interval_cases k <;> norm_num
  · unfold ignoredMatrix ignored
    rw [h1, h2]
    simp only [List.mapM_cons, List.mapM_nil, hs, bind, Except.bind, pure, Except.pure, List.head?_cons, List.getLast?_singleton, between, before, after]
    norm_num
  · intro hh
    have := (hh 1 (by simp)).1 ⟨(1, 4), by simp, by norm_num, by norm_num⟩ (3, 7) (by simp)
    norm_num at this

example : Ordered [1, 2, 4] [2, 4, 8] ∧ ∀ k, k + 1 < 3 → ([1, 2, 4] : List ℝ).getD (k + 1) 0 = ([2, 4, 8] : List ℝ).getD k 0 := by
  refine ⟨⟨rfl, ?_, ?_⟩, ?_⟩ <;> intro k hk
  · have hk' : k < 3 := by simpa using hk
    interval_cases k <;> norm_num
  · have hk' : k < 2 := by simp at hk; omega
    interval_cases k <;> norm_num
  · have : k < 2 := by omega
    interval_cases k <;> norm_num

end Elisa.Plot.Resp
