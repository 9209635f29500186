import Verif.Plot.Bands
import Verif.Plot.Draw
import Verif.Infer.CredibleProps
import Verif.Infer.ParamsProps

/-!
# C93: bands hold the stated share, and marks are outside the widest band
-/

namespace Elisa.Plot

open Elisa Elisa.Infer

/-! ## One channel -/

theorem band_eq (xs : List ℝ) (hne : xs ≠ []) (cl : ℝ) (h0 : 0 < cl) (h1 : cl < 1) :
    ∃ m lo hi, quantile xs 0.5 = .ok m ∧ band xs cl = .ok (lo, hi) ∧ ciParam cl false [xs] = .ok (.mk' m (lo, hi)) ∧ lo ≤ m ∧ m ≤ hi ∧
      (∃ x ∈ xs, x ≤ lo) ∧ ∃ x ∈ xs, hi ≤ x := by
  obtain ⟨p, m, lo, hi, hp, -, -, hm, hlo, hhi, he, -, hlm, hmh, hx, hy⟩ := C48_interval cl h0 xs hne
  have hpc : p = cl := by
    have := (C48_level cl).2.1 h0 h1
    rw [hp] at this
    exact Except.ok.inj this
  subst hpc
  have e1 : (0.5 + p * (-0.5) : ℝ) = 0.5 - p / 2 := by ring
  have e2 : (0.5 + p * 0.5 : ℝ) = 0.5 + p / 2 := by ring
  refine ⟨m, lo, hi, hm, ?_, ?_, hlm, hmh, hx, hy⟩
  · simp only [band, e1, e2, hlo, hhi, bind, Except.bind, pure, Except.pure]
  · have hf : [xs].flatten = xs := by simp
    simp only [ciParam, hf, he, bind, Except.bind, pure, Except.pure]

/-- **C93 (share).**  A band of level `cl` of a channel holds more than `cl (n - 1) - 1` of the `n` simulated values, lies within their range and
holds their median. -/
theorem C93_band (xs : List ℝ) (hne : xs ≠ []) (cl : ℝ) (h0 : 0 < cl) (h1 : cl < 1) :
    ∃ m lo hi, quantile xs 0.5 = .ok m ∧ band xs cl = .ok (lo, hi) ∧ lo ≤ m ∧ m ≤ hi ∧ (∃ x ∈ xs, x ≤ lo) ∧ (∃ x ∈ xs, hi ≤ x) ∧
      cl * ((xs.length : ℝ) - 1) - 1 < inside lo hi xs := by
  obtain ⟨m, lo, hi, e1, e2, e3, e4, e5, e6, e7⟩ := band_eq xs hne cl h0 h1
  have hf : [xs].flatten = xs := by simp
  obtain ⟨p, c, hp, hc, -, -, -, -, hi'⟩ := C82_eti_content cl h0 [xs] (by rw [hf]; exact hne)
  rw [e3] at hc
  obtain rfl := Except.ok.inj hc
  have hpc : p = cl := by
    have := (C48_level cl).2.1 h0 h1
    rw [hp] at this
    exact Except.ok.inj this
  rw [hf, hpc] at hi'
  exact ⟨m, lo, hi, e1, e2, e4, e5, e6, e7, hi'⟩

/-- The interval of five values of level one half. -/
example : ∃ m lo hi, quantile [1, 2, 3, 4, 5] 0.5 = .ok m ∧ band [1, 2, 3, 4, 5] (1 / 2) = .ok (lo, hi) ∧ lo ≤ m ∧ m ≤ hi := by
  obtain ⟨m, lo, hi, h1, h2, h3, h4, _⟩ := C93_band [1, 2, 3, 4, 5] (by simp) (1 / 2) (by norm_num) (by norm_num)
  exact ⟨m, lo, hi, h1, h2, h3, h4⟩

/-- **C93 (share, without sign).**  A band without regard to the sign is symmetric, and holds more than `cl (n - 1)` of the `n` simulated
values. -/
theorem C93_symmetric (xs : List ℝ) (hne : xs ≠ []) (cl : ℝ) (h0 : 0 < cl) (h1 : cl < 1) :
    ∃ q, absBand xs cl = .ok (-q, q) ∧ 0 ≤ q ∧ (∃ x ∈ xs, q ≤ |x|) ∧ cl * ((xs.length : ℝ) - 1) < inside (-q) q xs := by
  have hne' : (xs.map fun x => |x|) ≠ [] := by simpa using hne
  obtain ⟨Q, hQ, hQm, hQr, hQ0, hQ1, hQi⟩ := C48_quantile (xs.map fun x => |x|) hne'
  have hq0 : 0 ≤ Q 0 := by
    obtain ⟨x, -, hx⟩ := List.mem_map.1 hQ0
    rw [← hx]
    exact abs_nonneg x
  have hqc : 0 ≤ Q cl := hq0.trans (hQm 0 cl le_rfl h0.le h1.le)
  refine ⟨Q cl, ?_, hqc, ?_, ?_⟩
  · simp only [absBand, hQ cl h0.le h1.le, bind, Except.bind, pure, Except.pure]
  · obtain ⟨x, hx, hx'⟩ := List.mem_map.1 hQ1
    exact ⟨x, hx, by rw [hx']; exact hQm cl 1 h0.le h1.le le_rfl⟩
  · have hin : inside (-Q cl) (Q cl) xs = inside 0 (Q cl) (xs.map fun x => |x|) := by
      unfold inside
      rw [List.countP_map]
      apply List.countP_congr
      intro x _
      simp [abs_le]
    rw [hin]
    have hl : (xs.map fun x => |x|).length = xs.length := by simp
    have hpos : 0 < xs.length := List.length_pos_iff.2 hne
    have hR : (1 : ℝ) ≤ xs.length := by exact_mod_cast hpos
    have hnn : 0 ≤ cl * ((xs.length : ℝ) - 1) := mul_nonneg h0.le (by linarith)
    have hfl := Nat.floor_le hnn
    have hlt := Nat.lt_floor_add_one (cl * ((xs.length : ℝ) - 1))
    set k := ⌊cl * ((xs.length : ℝ) - 1)⌋₊
    have hk : k < xs.length := by
      have : (k : ℝ) < xs.length := by nlinarith
      exact_mod_cast this
    have hget : ∀ j, j < xs.length →
        ((xs.map fun x => |x|).insertionSort (· ≤ ·))[j]? = some ((sorted (xs.map fun x => |x|)).getD j 0) := by
      intro j hj
      have : j < (sorted (xs.map fun x => |x|)).length := by rw [sorted_length, hl]; exact hj
      rw [getD_lt _ _ this]
      exact List.getElem?_eq_getElem this
    have hrun := inside_of_run (xs.map fun x => |x|) 0 (Q cl) hqc 0 k (by rw [hl]; omega)
      (by
        have := (hQi 0 _ 0 1 (hget 0 hpos) le_rfl le_rfl (by simp) (by simp; linarith)).1
        exact hq0.trans this)
      (by
        rw [Nat.zero_add]
        exact (hQi k _ 0 cl (hget k hk) le_rfl h1.le (by simp) (by rw [hl]; exact hfl)).2)
    have : ((k + 1 : Nat) : ℝ) ≤ inside 0 (Q cl) (xs.map fun x => |x|) := by exact_mod_cast hrun
    push_cast at this
    linarith

example : ∃ q, absBand [-1, 2, -3] (1 / 2) = .ok (-q, q) ∧ 0 ≤ q := by
  obtain ⟨q, h1, h2, _⟩ := C93_symmetric [-1, 2, -3] (by simp) (1 / 2) (by norm_num) (by norm_num)
  exact ⟨q, h1, h2⟩

/-- The band of one channel, with or without sign. -/
noncomputable def band1 (withSign : Bool) (xs : List ℝ) (cl : ℝ) : Except PyErr (ℝ × ℝ) := if withSign then band xs cl else absBand xs cl

/-- **C93 (nesting).**  A band of a higher level contains the band of a lower level. -/
theorem C93_nested (withSign : Bool) (xs : List ℝ) (hne : xs ≠ []) (cl cl' : ℝ) (h0 : 0 < cl) (hle : cl ≤ cl') (h1 : cl' < 1) :
    ∃ b b', band1 withSign xs cl = .ok b ∧ band1 withSign xs cl' = .ok b' ∧ b'.1 ≤ b.1 ∧ b.2 ≤ b'.2 := by
  cases withSign
  · have hne' : (xs.map fun x => |x|) ≠ [] := by simpa using hne
    obtain ⟨Q, hQ, hQm, -⟩ := C48_quantile (xs.map fun x => |x|) hne'
    refine ⟨(-Q cl, Q cl), (-Q cl', Q cl'), ?_, ?_, ?_, ?_⟩
    · simp only [band1, absBand, hQ cl h0.le (by linarith), bind, Except.bind, pure, Except.pure]; rfl
    · simp only [band1, absBand, hQ cl' (by linarith) h1.le, bind, Except.bind, pure, Except.pure]; rfl
    · have := hQm cl cl' h0.le hle h1.le
      show -Q cl' ≤ -Q cl
      linarith
    · exact hQm cl cl' h0.le hle h1.le
  · obtain ⟨Q, hQ, hQm, -⟩ := C48_quantile xs hne
    refine ⟨(Q (0.5 + cl * (-0.5)), Q (0.5 + cl * 0.5)), (Q (0.5 + cl' * (-0.5)), Q (0.5 + cl' * 0.5)), ?_, ?_, ?_, ?_⟩
    · simp only [band1, band, hQ (0.5 + cl * (-0.5)) (by norm_num; linarith) (by norm_num; linarith),
        hQ (0.5 + cl * 0.5) (by positivity) (by norm_num; linarith), bind, Except.bind, pure, Except.pure]; rfl
    · simp only [band1, band, hQ (0.5 + cl' * (-0.5)) (by norm_num; linarith) (by norm_num; linarith),
        hQ (0.5 + cl' * 0.5) (by have : 0 < cl' := by linarith
                                 positivity) (by norm_num; linarith), bind, Except.bind, pure, Except.pure]; rfl
    · exact hQm _ _ (by norm_num; linarith) (by norm_num; linarith) (by norm_num; linarith)
    · exact hQm _ _ (by positivity) (by norm_num; linarith) (by norm_num; linarith)

example : ∃ b b', band1 true [1, 2, 3] 0.683 = .ok b ∧ band1 true [1, 2, 3] 0.95 = .ok b' ∧ b'.1 ≤ b.1 ∧ b.2 ≤ b'.2 :=
  C93_nested true [1, 2, 3] (by simp) 0.683 0.95 (by norm_num) (by norm_num) (by norm_num)

/-! ## All channels -/

theorem ci_total (withSign : Bool) (cols : List (List ℝ)) (hne : ∀ xs ∈ cols, xs ≠ []) (cl : ℝ) (h0 : 0 < cl) (h1 : cl < 1) :
    ∃ b, residualsCi (some cols) cl withSign = .ok (some b) ∧ b.length = cols.length ∧
      ∀ (i : ℕ) xs, cols[i]? = some xs → ∃ q, b[i]? = some q ∧ band1 withSign xs cl = .ok q := by
  have hall : ∀ xs ∈ cols, ∃ q, band1 withSign xs cl = .ok q := by
    intro xs hx
    obtain ⟨b, -, hb, -⟩ := C93_nested withSign xs (hne xs hx) cl cl h0 le_rfl h1
    exact ⟨b, hb⟩
  have : ∃ b, cols.mapM (fun xs => band1 withSign xs cl) = .ok b := by
    clear hne
    induction cols with
    | nil => exact ⟨[], rfl⟩
    | cons a l ih =>
      obtain ⟨q, hq⟩ := hall a (by simp)
      obtain ⟨qs, hqs⟩ := ih fun x hx => hall x (by simp [hx])
      exact ⟨q :: qs, by rw [List.mapM_cons, hq, hqs]; rfl⟩
  obtain ⟨b, hb⟩ := this
  obtain ⟨q1, q2⟩ := (mapM_ok_iff _ _ _).1 hb
  refine ⟨b, ?_, q1.symm, q2⟩
  simp only [residualsCi]
  rw [if_pos ⟨h0, h1⟩]
  show some <$> cols.mapM (fun xs => band1 withSign xs cl) = _
  rw [hb]
  rfl

/-- **C93 (levels).**  Levels are accepted exactly when all are between 0 and 1; the configuration then holds the same levels in increasing order,
the last of them being the highest. -/
theorem C93_levels (cl : List ℝ) :
    ((∃ s, setCl cl = .ok s) ↔ ∀ c ∈ cl, 0 < c ∧ c < 1) ∧
    ∀ s, setCl cl = .ok s → s.Perm cl ∧ s.Pairwise (· ≤ ·) ∧ ∀ m, s.getLast? = some m → ∀ c ∈ cl, c ≤ m := by
  have hp : (cl.insertionSort (· ≤ ·)).Perm cl := List.perm_insertionSort _ _
  have hs : (cl.insertionSort (· ≤ ·)).Pairwise (· ≤ ·) := List.pairwise_insertionSort _ _
  have hall : (cl.insertionSort (· ≤ ·)).all (fun c => decide (0 < c ∧ c < 1)) = true ↔ ∀ c ∈ cl, 0 < c ∧ c < 1 := by
    rw [List.all_eq_true]
    constructor
    · intro h c hc
      simpa using h c (hp.mem_iff.2 hc)
    · intro h c hc
      simpa using h c (hp.mem_iff.1 hc)
  constructor
  · unfold setCl
    constructor
    · rintro ⟨s, h⟩
      split_ifs at h with hc
      exact hall.1 hc
    · intro h
      rw [if_pos (hall.2 h)]
      exact ⟨_, rfl⟩
  · intro s h
    unfold setCl at h
    split_ifs at h with hc
    obtain rfl := Except.ok.inj h
    refine ⟨hp, hs, fun m hm c hc => ?_⟩
    have hc' := hp.mem_iff.2 hc
    obtain ⟨ys, e⟩ := List.getLast?_eq_some_iff.1 hm
    rw [e] at hs hc'
    rcases List.mem_append.1 hc' with h | h
    · exact (List.pairwise_append.1 hs).2.2 c h m (by simp)
    · rw [List.mem_singleton] at h
      exact h.le

theorem filterMap_some {α : Type} (l : List α) : (l.map some).filterMap id = l := by
  induction l with
  | nil => rfl
  | cons a l ih => simp

theorem bands_of_sims (withSign : Bool) (cols : List (List ℝ)) (hne : ∀ xs ∈ cols, xs ≠ []) (cl : List ℝ) (hcl : ∀ c ∈ cl, 0 < c ∧ c < 1) :
    ∃ bs : List (List (ℝ × ℝ)), (cl.mapM fun c => residualsCi (some cols) c withSign) = .ok (bs.map some) ∧ bs.length = cl.length ∧
      ∀ (k : ℕ) c, cl[k]? = some c → ∃ b, bs[k]? = some b ∧ residualsCi (some cols) c withSign = .ok (some b) := by
  induction cl with
  | nil => exact ⟨[], rfl, rfl, by simp⟩
  | cons c cl ih =>
    obtain ⟨b, hb, -⟩ := ci_total withSign cols hne c (hcl c (by simp)).1 (hcl c (by simp)).2
    obtain ⟨bs, e1, e2, e3⟩ := ih fun c hc => hcl c (by simp [hc])
    refine ⟨b :: bs, ?_, by simp [e2], ?_⟩
    · rw [List.mapM_cons, hb, e1]
      rfl
    · intro k c' hk
      cases k with
      | zero =>
        have : c = c' := by simpa using hk
        subst this
        exact ⟨b, rfl, hb⟩
      | succ k => exact e3 k c' (by simpa using hk)

/-- **C93 (panel with simulations).**  With simulated residuals, the panel shows one band for every level and the residuals of the best fit,
and marks a channel exactly when its residual is outside the band of the highest level, hence outside every band shown. -/
theorem C93_marks (isf : ℝ → ℝ) (cl : List ℝ) (s : List ℝ) (hs : setCl cl = .ok s) (hcl : cl ≠ []) (withSign : Bool) (cols : List (List ℝ))
    (hne : ∀ xs ∈ cols, xs ≠ []) (r : Bool → List ℝ) (hr : (r true).length = cols.length) :
    ∃ p, residualPanel isf s withSign true (some cols) r = .ok p ∧ p.useMle = true ∧ p.r = r true ∧ p.bands.length = s.length ∧ p.marked.length = cols.length ∧
      ∀ (i : ℕ) xs x, cols[i]? = some xs → (r true)[i]? = some x →
        ∃ m q, (∀ c ∈ cl, c ≤ m) ∧ m ∈ cl ∧ band1 withSign xs m = .ok q ∧ (p.marked[i]? = some true ↔ x < q.1 ∨ q.2 < x) ∧
          (p.marked[i]? = some true → ∀ c ∈ cl, ∃ b, band1 withSign xs c = .ok b ∧ (x < b.1 ∨ b.2 < x)) := by
  obtain ⟨hin, hpr⟩ := C93_levels cl
  obtain ⟨hperm, hsort, hlast⟩ := hpr s hs
  have hin := hin.1 ⟨s, hs⟩
  have hsin : ∀ c ∈ s, 0 < c ∧ c < 1 := fun c hc => hin c (hperm.mem_iff.1 hc)
  have hsne : s ≠ [] := by
    rintro rfl
    exact hcl (List.nil_perm.1 hperm)
  obtain ⟨m, hm⟩ : ∃ m, s.getLast? = some m := by
    cases h : s.getLast? with
    | none => exact absurd (List.getLast?_eq_none_iff.1 h) hsne
    | some m => exact ⟨m, rfl⟩
  have hms : m ∈ s := List.mem_of_getLast? hm
  obtain ⟨bs, e1, e2, e3⟩ := bands_of_sims withSign cols hne s hsin
  have hbne : bs ≠ [] := by
    rintro rfl
    exact hsne (List.length_eq_zero_iff.1 e2.symm)
  obtain ⟨b, hb, hbm⟩ := e3 (s.length - 1) m (by rw [← List.getLast?_eq_getElem?]; exact hm)
  have hbl : bs.getLast? = some b := by
    rw [List.getLast?_eq_getElem?, e2]
    exact hb
  obtain ⟨b', hb', hb1, hb2⟩ := ci_total withSign cols hne m (hsin m hms).1 (hsin m hms).2
  have : b' = b := by
    rw [hbm] at hb'
    exact (Option.some.inj (Except.ok.inj hb')).symm
  subst this
  have hfm : (bs.map some).filterMap id = bs := filterMap_some bs
  have hmk : outlierMarks bs (s.map fun c => isf (0.5 * (1 - c))) (r true) = .ok (List.zipWith outside (r true) b') := by
    simp only [outlierMarks, hbl]
    rw [if_pos hbne]
  refine ⟨⟨bs, [], true, r true, List.zipWith outside (r true) b'⟩, ?_, rfl, rfl, e2, ?_, ?_⟩
  · simp only [residualPanel, e1, bind, Except.bind, hfm, pure, Except.pure]
    simp only [hbne, ne_eq, not_false_eq_true, decide_true, if_true, hmk]
  · show (List.zipWith outside (r true) b').length = _
    simp
    omega
  · intro i xs x hi hx
    obtain ⟨q, hq1, hq2⟩ := hb2 i xs hi
    have hmi : (List.zipWith outside (r true) b')[i]? = some (outside x q) := List.getElem?_zipWith_eq_some.2 ⟨x, q, hx, hq1, rfl⟩
    have hiff : (List.zipWith outside (r true) b')[i]? = some true ↔ x < q.1 ∨ q.2 < x := by
      rw [hmi]
      simp [outside]
    refine ⟨m, q, hlast m hm, hperm.mem_iff.1 hms, hq2, hiff, fun hmark c hc => ?_⟩
    obtain ⟨bc, bm, h1, h2, h3, h4⟩ := C93_nested withSign xs (hne xs (List.mem_of_getElem? hi)) c m (hin c hc).1 (hlast m hm c hc) (hsin m hms).2
    rw [hq2] at h2
    obtain rfl := Except.ok.inj h2
    refine ⟨bc, h1, ?_⟩
    rcases hiff.1 hmark with h | h
    · left; linarith
    · right; linarith

/-- **C93 (panel without simulations).**  The bands are those of a standard normal variable: `[-q, q]` has probability `cl`; marks are the residuals
outside the widest. -/
theorem C93_normal (isf : ℝ → ℝ) (hisf : ∀ p, 0 < p → p < 1 → normSf (isf p) = p) (cl s : List ℝ) (hs : setCl cl = .ok s) (hcl : cl ≠ []) (withSign : Bool)
    (r : Bool → List ℝ) :
    ∃ p, residualPanel isf s withSign true none r = .ok p ∧ p.useMle = false ∧ p.bands = [] ∧ p.r = r false ∧ p.normal.length = s.length ∧
      (∀ (k : ℕ) c, s[k]? = some c → ∃ q, p.normal[k]? = some q ∧ 0 < q ∧ stdNormal.real (Set.Icc (-q) q) = c) ∧
      ∃ q, p.normal.getLast? = some q ∧ (∀ q' ∈ p.normal, q' ≤ q) ∧ ∀ (i : ℕ) x, (r false)[i]? = some x → (p.marked[i]? = some true ↔ x < -q ∨ q < x) := by
  obtain ⟨hin, hpr⟩ := C93_levels cl
  obtain ⟨hperm, hsort, hlast⟩ := hpr s hs
  have hin := hin.1 ⟨s, hs⟩
  have hsin : ∀ c ∈ s, 0 < c ∧ c < 1 := fun c hc => hin c (hperm.mem_iff.1 hc)
  have hsne : s ≠ [] := by
    rintro rfl
    exact hcl (List.nil_perm.1 hperm)
  obtain ⟨m, hm⟩ : ∃ m, s.getLast? = some m := by
    cases h : s.getLast? with
    | none => exact absurd (List.getLast?_eq_none_iff.1 h) hsne
    | some m => exact ⟨m, rfl⟩
  have hms : m ∈ s := List.mem_of_getLast? hm
  have e1 : (s.mapM fun c => residualsCi none c withSign) = .ok (s.map fun _ => none) := by
    clear hs hpr hperm hsort hlast hsin hsne hm hms
    induction s with
    | nil => rfl
    | cons c s ih => rw [List.mapM_cons, ih]; rfl
  have hfm : (s.map fun _ => (none : Option (List (ℝ × ℝ)))).filterMap id = [] := by
    rw [List.filterMap_eq_nil_iff]
    intro a ha
    obtain ⟨-, -, rfl⟩ := List.mem_map.1 ha
    rfl
  have hql : (s.map fun c => isf (0.5 * (1 - c))).getLast? = some (isf (0.5 * (1 - m))) := by
    rw [List.getLast?_map, hm]
    rfl
  have hsf : ∀ c, 0 < c → c < 1 → normSf (isf (0.5 * (1 - c))) = 0.5 * (1 - c) := fun c h0 h1 => hisf _ (by linarith) (by norm_num; linarith)
  have hq0 : ∀ c, 0 < c → c < 1 → 0 < isf (0.5 * (1 - c)) := by
    intro c h0 h1
    by_contra hn
    push Not at hn
    have h := normSf_strictAnti.antitone hn
    rw [hsf c h0 h1] at h
    have hz : (1 : ℝ) - 2 * normSf 0 = 0 := by
      rw [central_prob le_rfl]
      simp only [neg_zero, Set.Icc_self]
      rw [MeasureTheory.measureReal_def, stdNormal_singleton]
      rfl
    have : (0.5 * (1 - c) : ℝ) = 0.5 - 0.5 * c := by ring
    norm_num at h
    linarith
  refine ⟨⟨[], s.map fun c => isf (0.5 * (1 - c)), false, r false, (r false).map fun x => outside x (-isf (0.5 * (1 - m)), isf (0.5 * (1 - m)))⟩,
    ?_, rfl, rfl, rfl, by simp, ?_, isf (0.5 * (1 - m)), hql, ?_, ?_⟩
  · have hmk : outlierMarks [] (s.map fun c => isf (0.5 * (1 - c))) (r false) =
        .ok ((r false).map fun x => outside x (-isf (0.5 * (1 - m)), isf (0.5 * (1 - m)))) := by
      simp only [outlierMarks, hql]
      rfl
    simp only [residualPanel, e1, bind, Except.bind, hfm, pure, Except.pure]
    simp only [ne_eq, not_true_eq_false, decide_false, if_true, if_false, hmk]
  · intro k c hk
    have hc := hsin c (List.mem_of_getElem? hk)
    refine ⟨isf (0.5 * (1 - c)), by rw [List.getElem?_map, hk]; rfl, hq0 c hc.1 hc.2, ?_⟩
    rw [← central_prob (hq0 c hc.1 hc.2).le, hsf c hc.1 hc.2]
    ring
  · intro q' hq'
    obtain ⟨c, hc, rfl⟩ := List.mem_map.1 hq'
    have hcm : c ≤ m := hlast m hm c (hperm.mem_iff.1 hc)
    by_contra hlt
    push Not at hlt
    have := normSf_strictAnti hlt
    rw [hsf c (hsin c hc).1 (hsin c hc).2, hsf m (hsin m hms).1 (hsin m hms).2] at this
    norm_num at this
    linarith
  · intro i x hx
    rw [List.getElem?_map, hx]
    simp [outside]

/-- Levels may be given in any order, and a panel exists. -/
example : ∃ s p, setCl [0.95, 0.683] = .ok s ∧ residualPanel id s true true (some [[1, 2, 3], [0, 0, 1]]) (fun _ => [5, 0]) = .ok p ∧ p.bands.length = 2 := by
  obtain ⟨s, hs⟩ := (C93_levels [0.95, 0.683]).1.2 (by norm_num)
  obtain ⟨p, hp, -, -, hl, -⟩ := C93_marks id [0.95, 0.683] s hs (by simp) true [[1, 2, 3], [0, 0, 1]] (by simp) (fun _ => [5, 0]) rfl
  refine ⟨s, p, hs, hp, ?_⟩
  rw [hl, ((C93_levels [0.95, 0.683]).2 s hs).1.length_eq]
  rfl

/-- No level at all is accepted by the configuration; marking outliers then raises. -/
theorem C93_nolevel_refuted (isf : ℝ → ℝ) (sims : Option (List (List ℝ))) (r : Bool → List ℝ) :
    setCl [] = .ok [] ∧ residualPanel isf [] true true sims r = .error .indexError := by
  constructor
  · rfl
  · rfl

/-! ## Unfolded models -/

theorem override_lookup (a b : Params) (k : String) : (override a b).lookup k = (b.lookup k).or (a.lookup k) := by
  unfold override
  induction b with
  | nil => rfl
  | cons kv b ih =>
    rw [List.cons_append]
    obtain ⟨k', v⟩ := kv
    by_cases h : k = k'
    · subst h
      simp [List.lookup]
    · have hk' : (k == k') = false := by simpa using h
      simp only [List.lookup, hk', ih]

theorem mapM_band (cls : List ℝ) (hc : ∀ c ∈ cls, 0 < c ∧ c < 1) (xs : List ℝ) (hne : xs ≠ []) :
    ∃ b, (cls.mapM fun c => band xs c) = .ok b ∧ b.length = cls.length ∧ ∀ (k : ℕ) c, cls[k]? = some c → ∃ q, b[k]? = some q ∧ band xs c = .ok q := by
  have : ∃ b, (cls.mapM fun c => band xs c) = .ok b := by
    induction cls with
    | nil => exact ⟨[], rfl⟩
    | cons c cls ih =>
      obtain ⟨m, lo, hi, -, h, -⟩ := C93_band xs hne c (hc c (by simp)).1 (hc c (by simp)).2
      obtain ⟨qs, hqs⟩ := ih fun x hx => hc x (by simp [hx])
      exact ⟨(lo, hi) :: qs, by rw [List.mapM_cons, h, hqs]; rfl⟩
  obtain ⟨b, hb⟩ := this
  obtain ⟨q1, q2⟩ := (mapM_ok_iff _ _ _).1 hb
  exact ⟨b, hb, q1.symm, q2⟩

/-- **C93 (unfolded model, maximum likelihood).**  The curve is the model at the best fit with the given parameters in place of their estimates; the band of
every level is the band of the models of the simulations with the same replacement. -/
theorem C93_unfolded_mle (model : Params → ℝ) (mle : Params) (sims : List Params) (hne : sims ≠ []) (params : Params) (cls : List ℝ) (hc : ∀ c ∈ cls, 0 < c ∧ c < 1) :
    ∃ b, mleUnfolded model mle (some sims) params (some cls) = .ok (model (override mle params), some b) ∧ b.length = cls.length ∧
      ∀ (k : ℕ) c, cls[k]? = some c → ∃ q, b[k]? = some q ∧ band (sims.map fun p => model (override p params)) c = .ok q := by
  obtain ⟨b, e1, e2, e3⟩ := mapM_band cls hc (sims.map fun p => model (override p params)) (by simpa using hne)
  refine ⟨b, ?_, e2, e3⟩
  have hall : cls.all (fun c => decide (0 < c ∧ c < 1)) = true := by
    rw [List.all_eq_true]
    intro c h
    exact decide_eq_true (hc c h)
  simp only [mleUnfolded]
  rw [if_pos hall, e1]
  rfl

/-- Two simulated fits of a power law, with the default levels of one and two sigma. -/
example (model : Params → ℝ) : ∃ b, mleUnfolded model [("PL.K", 1), ("PL.alpha", 2)]
    (some [[("PL.K", 0.9), ("PL.alpha", 2.1)], [("PL.K", 1.2), ("PL.alpha", 1.9)]]) [] (some [0.683, 0.95]) =
      .ok (model (override [("PL.K", 1), ("PL.alpha", 2)] []), some b) ∧ b.length = 2 := by
  obtain ⟨b, h1, h2, _⟩ := C93_unfolded_mle model [("PL.K", 1), ("PL.alpha", 2)]
    [[("PL.K", 0.9), ("PL.alpha", 2.1)], [("PL.K", 1.2), ("PL.alpha", 1.9)]] (by simp) [] [0.683, 0.95]
    (by intro c hc; simp only [List.mem_cons, List.not_mem_nil, or_false] at hc; rcases hc with rfl | rfl <;> norm_num)
  exact ⟨b, h1, h2⟩

/-- **C93 (levels of the unfolded model).**  A level outside `(0, 1)` is refused whether or not there are simulations; without simulations, and
without a level, only the curve of the best fit comes back. -/
theorem C93_unfolded_levels (model : Params → ℝ) (mle : Params) (params : Params) (cls : List ℝ) :
    ((∃ c ∈ cls, c ≤ 0 ∨ 1 ≤ c) → ∀ boot, mleUnfolded model mle boot params (some cls) = .error .assertionError) ∧
    ((∀ c ∈ cls, 0 < c ∧ c < 1) → mleUnfolded model mle none params (some cls) = .ok (model (override mle params), none)) ∧
    (∀ boot, mleUnfolded model mle boot params none = .ok (model (override mle params), none)) := by
  refine ⟨?_, ?_, fun boot => by cases boot <;> rfl⟩
  · rintro ⟨c, hc, h⟩ boot
    have hall : ¬ (cls.all (fun c => decide (0 < c ∧ c < 1)) = true) := by
      rw [List.all_eq_true]
      intro H
      have := of_decide_eq_true (H c hc)
      rcases h with h | h <;> linarith [this.1, this.2]
    cases boot with
    | none => exact if_neg hall
    | some sims => exact if_neg hall
  · intro hc
    have hall : cls.all (fun c => decide (0 < c ∧ c < 1)) = true := by
      rw [List.all_eq_true]
      intro c h
      exact decide_eq_true (hc c h)
    exact if_pos hall

example : mleUnfolded (fun _ => 2) [("a", 0)] (some [[("a", 1)]]) [] (some [0.5, 1]) = .error .assertionError :=
  (C93_unfolded_levels _ _ _ _).1 ⟨1, by simp, Or.inr le_rfl⟩ _

/-- **C93 (unfolded model, posterior).**  The curve is the median of the models of the draws, with the given parameters replaced, and lies within every
band. -/
theorem C93_unfolded_posterior (model : Params → ℝ) (post : List Params) (hne : post ≠ []) (params : Params) (comps : Bool) (cls : List ℝ)
    (hc : ∀ c ∈ cls, 0 < c ∧ c < 1) :
    ∃ m b, postUnfolded model post params comps (some cls) = .ok (m, some b) ∧ quantile (post.map fun p => model (override p params)) 0.5 = .ok m ∧
      b.length = cls.length ∧ ∀ q ∈ b, q.1 ≤ m ∧ m ≤ q.2 := by
  have hx : (post.map fun p => model (override p params)) ≠ [] := by simpa using hne
  obtain ⟨b, e1, e2, e3⟩ := mapM_band cls hc _ hx
  obtain ⟨Q, hQ, -⟩ := C48_quantile _ hx
  have hm := hQ 0.5 (by norm_num) (by norm_num)
  refine ⟨Q 0.5, b, ?_, hm, e2, ?_⟩
  · have hall : cls.all (fun c => decide (0 < c ∧ c < 1)) = true := by
      rw [List.all_eq_true]
      intro c h
      exact decide_eq_true (hc c h)
    simp only [postUnfolded]
    rw [if_pos hall, hm, e1]
    rfl
  · intro q hq
    obtain ⟨k, hk⟩ := List.mem_iff_getElem?.1 hq
    have hkl : k < cls.length := by
      rw [← e2]
      exact (List.getElem?_eq_some_iff.1 hk).1
    obtain ⟨q', h1, h2⟩ := e3 k cls[k] (List.getElem?_eq_getElem hkl)
    rw [hk] at h1
    obtain rfl := Option.some.inj h1
    have hcc := hc cls[k] (List.getElem_mem hkl)
    obtain ⟨m, lo, hi, a1, a2, a3, a4, -⟩ := C93_band _ hx cls[k] hcc.1 hcc.2
    rw [hm] at a1
    obtain rfl := Except.ok.inj a1
    rw [h2] at a2
    obtain rfl := Except.ok.inj a2
    exact ⟨a3, a4⟩

example (model : Params → ℝ) : ∃ m b, postUnfolded model [[("PL.K", 0.9)], [("PL.K", 1.2)]] [] false (some [0.683]) = .ok (m, some b) ∧ b.length = 1 := by
  obtain ⟨m, b, h1, _, h2, _⟩ := C93_unfolded_posterior model [[("PL.K", 0.9)], [("PL.K", 1.2)]] (by simp) [] false [0.683]
    (by intro c hc; simp only [List.mem_cons, List.not_mem_nil, or_false] at hc; subst hc; norm_num)
  exact ⟨m, b, h1, h2⟩

/-- When every parameter is replaced, the band is the curve. -/
theorem C93_all_replaced (model : Params → ℝ) (mle : Params) (sims : List Params) (hne : sims ≠ []) (params : Params) (c : ℝ) (h0 : 0 < c) (h1 : c < 1)
    (hm : ∀ p q : Params, (∀ k, k ∈ params.map Prod.fst → p.lookup k = q.lookup k) → model p = model q) :
    mleUnfolded model mle (some sims) params (some [c]) = .ok (model (override mle params), some [(model (override mle params), model (override mle params))]) := by
  obtain ⟨b, e1, e2, e3⟩ := C93_unfolded_mle model mle sims hne params [c] (by simpa using ⟨h0, h1⟩)
  have hconst : ∀ p, model (override p params) = model (override mle params) := by
    intro p
    apply hm
    intro k hk
    rw [override_lookup, override_lookup]
    have : (params.lookup k).isSome := by
      clear hm e1 e3
      induction params with
      | nil => simp at hk
      | cons kv l ih =>
        obtain ⟨k', v⟩ := kv
        by_cases h : k = k'
        · subst h; simp [List.lookup]
        · have hk' : (k == k') = false := by simpa using h
          simp only [List.lookup, hk']
          exact ih (by simpa [h] using hk)
    obtain ⟨v, hv⟩ := Option.isSome_iff_exists.1 this
    rw [hv]
    rfl
  obtain ⟨q, hq, hb⟩ := e3 0 c rfl
  obtain ⟨m, lo, hi, -, a2, a3, a4, ⟨x, hx, hxl⟩, ⟨y, hy, hyh⟩, -⟩ := C93_band (sims.map fun p => model (override p params)) (by simpa using hne) c h0 h1
  obtain ⟨p, -, rfl⟩ := List.mem_map.1 hx
  obtain ⟨p', -, rfl⟩ := List.mem_map.1 hy
  simp only [hconst] at hxl hyh
  have hlo : lo = model (override mle params) := by linarith
  have hhi : hi = model (override mle params) := by linarith
  rw [a2] at hb
  obtain rfl := Except.ok.inj hb
  obtain ⟨b0, rfl⟩ : ∃ b0, b = [b0] := List.length_eq_one_iff.1 (by simpa using e2)
  have : b0 = (lo, hi) := by simpa using hq
  rw [e1, this, hlo, hhi]

/-- The only parameter is given by the user: the band has no width. -/
example : mleUnfolded (fun p => (p.lookup "PL.K").getD 0) [("PL.K", 1)] (some [[("PL.K", 0.9)], [("PL.K", 1.2)]]) [("PL.K", 3)] (some [0.683]) =
    .ok ((fun p : Params => (p.lookup "PL.K").getD 0) (override [("PL.K", 1)] [("PL.K", 3)]),
      some [((fun p : Params => (p.lookup "PL.K").getD 0) (override [("PL.K", 1)] [("PL.K", 3)]),
        (fun p : Params => (p.lookup "PL.K").getD 0) (override [("PL.K", 1)] [("PL.K", 3)]))]) :=
  C93_all_replaced _ _ _ (by simp) [("PL.K", 3)] 0.683 (by norm_num) (by norm_num)
    (fun p q h => by simp only [h "PL.K" (by simp)])

/-- The curve of a maximum likelihood fit need not lie in its band: the simulations can all be on one side of it. -/
theorem C93_mle_refuted : ∃ (model : Params → ℝ) (mle : Params) (sims : List Params) (q : ℝ × ℝ),
    mleUnfolded model mle (some sims) [] (some [0.5]) = .ok (model mle, some [q]) ∧ model mle < q.1 := by
  let model : Params → ℝ := fun p => (p.lookup "a").getD 0
  obtain ⟨b, e1, e2, e3⟩ := C93_unfolded_mle model [("a", 0)] [[("a", 1)], [("a", 2)]] (by simp) [] [0.5] (by norm_num)
  obtain ⟨q, rfl⟩ : ∃ q, b = [q] := List.length_eq_one_iff.1 (by simpa using e2)
  refine ⟨model, [("a", 0)], [[("a", 1)], [("a", 2)]], q, e1, ?_⟩
  obtain ⟨q', h1, h2⟩ := e3 0 0.5 rfl
  have : q = q' := by simpa using h1
  subst this
  obtain ⟨m, lo, hi, -, a2, -, -, ⟨x, hx, hxl⟩, -⟩ := C93_band (([[("a", 1)], [("a", 2)]] : List Params).map fun p => model (override p [])) (by simp) 0.5 (by norm_num) (by norm_num)
  rw [a2] at h2
  obtain rfl := Except.ok.inj h2
  have hm : model [("a", 0)] = 0 := by simp [model, List.lookup]
  have hx1 : 1 ≤ x := by
    simp [model, override, List.lookup] at hx
    rcases hx with rfl | rfl <;> norm_num
  show model [("a", 0)] < lo
  rw [hm]
  linarith

/-- For a posterior, asking for the unfolded model without a level raises. -/
theorem C93_nocl_refuted (model : Params → ℝ) (post : List Params) (hne : post ≠ []) (params : Params) :
    postUnfolded model post params false none = .error .typeError ∧ ∃ m, postUnfolded model post params true none = .ok (m, none) := by
  have hx : (post.map fun p => model (override p params)) ≠ [] := by simpa using hne
  obtain ⟨Q, hQ, -⟩ := C48_quantile _ hx
  have hm := hQ 0.5 (by norm_num) (by norm_num)
  constructor
  · simp only [postUnfolded, hm]
    rfl
  · exact ⟨Q 0.5, by simp only [postUnfolded, hm]; rfl⟩

example (model : Params → ℝ) : postUnfolded model [[("PL.K", 0.9)]] [] false none = .error .typeError :=
  (C93_nocl_refuted model [[("PL.K", 0.9)]] (by simp) []).1

/-- The folded model: a band for every channel, no band without simulations, and levels outside `(0, 1)` are refused. -/
theorem C93_folded (cols : List (List ℝ)) (hne : ∀ xs ∈ cols, xs ≠ []) (cl : ℝ) :
    ceModelCi none cl = .ok none ∧ (¬ (0 < cl ∧ cl < 1) → ceModelCi (some cols) cl = .error .assertionError) ∧
    (0 < cl → cl < 1 → ∃ b, ceModelCi (some cols) cl = .ok (some b) ∧ b.length = cols.length ∧
      ∀ (i : ℕ) xs, cols[i]? = some xs → ∃ q, b[i]? = some q ∧ band xs cl = .ok q) := by
  refine ⟨rfl, fun h => ?_, fun h0 h1 => ?_⟩
  · simp only [ceModelCi]
    rw [if_neg h]
  · obtain ⟨b, e1, e2, e3⟩ := ci_total true cols hne cl h0 h1
    refine ⟨b, ?_, e2, e3⟩
    rw [← e1]
    simp only [ceModelCi, residualsCi, if_true]

example : ∃ b, ceModelCi (some [[1, 2], [3, 4], [5, 6]]) 0.683 = .ok (some b) ∧ b.length = 3 := by
  obtain ⟨b, h, hl, _⟩ := (C93_folded [[1, 2], [3, 4], [5, 6]] (by simp) 0.683).2.2 (by norm_num) (by norm_num)
  exact ⟨b, h, hl⟩

end Elisa.Plot
