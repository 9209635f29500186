import Verif.Infer.Ensemble
import Mathlib.Tactic.Linarith
import Mathlib.Tactic.Ring
import Mathlib.Order.Interval.Finset.Nat
import Mathlib.Algebra.BigOperators.Group.Finset.Piecewise
import Mathlib.Tactic.NormNum
import Mathlib.Algebra.BigOperators.Group.Finset.Basic
import Mathlib.Algebra.BigOperators.Group.List.Basic
import Mathlib.Algebra.Order.BigOperators.Group.Finset

/-!
# C72: bookkeeping of the parallel ensemble samplers
-/

namespace Elisa.Infer

theorem filterMap_row {α : Type} (w : ℕ) (draws : List (List α)) (W : ℕ) (hw : w < W) (h : ∀ r ∈ draws, r.length = W) :
    (draws.filterMap (fun row => row[w]?)).length = draws.length ∧
    ∀ s : ℕ, (draws.filterMap (fun row => row[w]?))[s]? = draws[s]?.bind (fun r => r[w]?) := by
  induction draws with
  | nil => simp
  | cons r t ih =>
    have hr : w < r.length := by rw [h r (by simp)]; exact hw
    obtain ⟨ih1, ih2⟩ := ih (fun x hx => h x (by simp [hx]))
    rw [List.filterMap_cons, List.getElem?_eq_getElem hr]
    refine ⟨by simp [ih1], fun s => ?_⟩
    cases s with
    | zero => simp [List.getElem?_eq_getElem hr]
    | succ s => simpa using ih2 s

theorem flatten_get {α : Type} (S : ℕ) (l : List (List α)) (h : ∀ r ∈ l, r.length = S) (w s : ℕ) (hs : s < S) :
    l.flatten[w * S + s]? = l[w]?.bind (fun r => r[s]?) := by
  induction l generalizing w with
  | nil => simp
  | cons r t ih =>
    have hr := h r (by simp)
    rw [List.flatten_cons]
    cases w with
    | zero =>
      rw [zero_mul, zero_add, List.getElem?_append_left (by omega)]
      simp
    | succ w =>
      rw [List.getElem?_append_right (by rw [hr]; nlinarith)]
      have : (w + 1) * S + s - r.length = w * S + s := by rw [hr, Nat.succ_mul]; omega
      rw [this, ih (fun x hx => h x (by simp [hx])) w]
      simp

/-- **C72** (draws).  From every sampler's draws (one row per step, one entry per walker) the walkers' chains are put one
after the other: draw `s` of walker `w` of sampler `i` is found at row `i`, place `w * steps + s`, and there is nothing
else. -/
theorem C72_draws {α : Type} (walkers steps : ℕ) (results : List (List (List α)))
    (hs : ∀ d ∈ results, d.length = steps) (hw : ∀ d ∈ results, ∀ r ∈ d, r.length = walkers) :
    (stackSamplers walkers results).length = results.length ∧
    (∀ row ∈ stackSamplers walkers results, row.length = walkers * steps) ∧
    (∀ i w s : ℕ, w < walkers → s < steps →
      ((stackSamplers walkers results)[i]?.bind fun row => row[w * steps + s]?) =
        (results[i]?.bind fun d => d[s]?.bind fun r => r[w]?)) := by
  unfold stackSamplers
  refine ⟨by simp, ?_, ?_⟩
  · intro row hrow
    obtain ⟨d, hd, rfl⟩ := List.mem_map.1 hrow
    unfold mergeWalkers
    rw [List.length_flatten, List.map_map]
    have : (List.range walkers).map (List.length ∘ fun w : ℕ => d.filterMap (fun row => row[w]?)) =
        (List.range walkers).map (fun _ => steps) := by
      apply List.map_congr_left
      intro w hw'
      rw [Function.comp, (filterMap_row w d walkers (List.mem_range.1 hw') (hw d hd)).1, hs d hd]
    rw [this]
    simp
  · intro i w s hw' hs'
    rw [List.getElem?_map]
    rcases hi : results[i]? with _ | d
    · simp
    · have hd := List.mem_of_getElem? hi
      simp only [Option.map_some, Option.bind_some]
      unfold mergeWalkers
      rw [flatten_get steps]
      · rw [List.getElem?_map, List.getElem?_range hw']
        simp only [Option.map_some, Option.bind_some]
        exact (filterMap_row w d walkers hw' (hw d hd)).2 s
      · intro r hr
        obtain ⟨v, hv, rfl⟩ := List.mem_map.1 hr
        rw [(filterMap_row v d walkers (List.mem_range.1 hv) (hw d hd)).1, hs d hd]
      · exact hs'

example := C72_draws 2 3 [[[1, 2], [3, 4], [5, 6]], [[7, 8], [9, 10], [11, 12]]] (by simp) (by simp)

/-- `ms` is an interleaving of the messages of samplers `1 .. n`: the messages of each sampler arrive in its own order, in
any mixture, and nothing else arrives. -/
def IsInterleaving (n : ℕ) (streams : ℕ → List Msg) (ms : List (ℕ × Msg)) : Prop :=
  (∀ x ∈ ms, 1 ≤ x.1 ∧ x.1 ≤ n) ∧ ∀ i, 1 ≤ i → i ≤ n → (ms.filter (fun x => x.1 = i)).map Prod.snd = streams i

theorem listen_all (n : ℕ) (ms : List (ℕ × Msg)) (f : ℕ) (bars : ℕ → ℕ) (hf : f ≤ n)
    (hc : ms.countP (fun x => x.2 = .finish) = n - f)
    (hl : ∀ x, ms.getLast? = some x → x.2 = .finish) :
    (listen n f bars ms).2 = ([], true) ∧
    ∀ i, (listen n f bars ms).1 i = bars i + ms.countP (fun x => x.1 = i ∧ x.2 = .update) := by
  induction ms generalizing f bars with
  | nil =>
    simp only [List.countP_nil] at hc
    have : n ≤ f := by omega
    simp [listen, this]
  | cons a t ih =>
    obtain ⟨i, m⟩ := a
    have hlt : ∀ x, t.getLast? = some x → x.2 = .finish := by
      intro x hx
      apply hl x
      rcases t with _ | ⟨b, t⟩
      · simp at hx
      · simpa [List.getLast?_cons_cons] using hx
    have hfn : ¬ n ≤ f := by
      intro hnf
      have h0 : ((i, m) :: t).countP (fun x => decide (x.2 = .finish)) = 0 := by omega
      rw [List.countP_eq_zero] at h0
      obtain ⟨x, hx⟩ : ∃ x, ((i, m) :: t).getLast? = some x := ⟨_, List.getLast?_eq_some_getLast (by simp)⟩
      have := h0 x (List.mem_of_getLast? hx)
      simp [hl x hx] at this
    cases m with
    | update =>
      rw [listen, if_neg hfn]
      simp only [List.countP_cons] at hc ⊢
      obtain ⟨h1, h2⟩ := ih f (Function.update bars i (bars i + 1)) hf (by simpa using hc) hlt
      refine ⟨h1, fun j => ?_⟩
      rw [h2]
      by_cases hij : i = j
      · subst hij; simp; omega
      · simp [hij, Function.update_of_ne (Ne.symm hij)]
    | finish =>
      rw [listen, if_neg hfn]
      simp only [List.countP_cons] at hc ⊢
      obtain ⟨h1, h2⟩ := ih (f + 1) bars (by omega) (by simp at hc; omega) hlt
      exact ⟨h1, fun j => by rw [h2]; simp⟩
    | warmup =>
      rw [listen, if_neg hfn]
      simp only [List.countP_cons] at hc ⊢
      obtain ⟨h1, h2⟩ := ih f bars hf (by simpa using hc) hlt
      exact ⟨h1, fun j => by rw [h2]; simp⟩
    | sample =>
      rw [listen, if_neg hfn]
      simp only [List.countP_cons] at hc ⊢
      obtain ⟨h1, h2⟩ := ih f bars hf (by simpa using hc) hlt
      exact ⟨h1, fun j => by rw [h2]; simp⟩

theorem countP_by_id (n : ℕ) (ms : List (ℕ × Msg)) (h : ∀ x ∈ ms, 1 ≤ x.1 ∧ x.1 ≤ n) (m : Msg) :
    ms.countP (fun x => x.2 = m) =
      ∑ i ∈ Finset.Icc 1 n, ((ms.filter (fun x => x.1 = i)).map Prod.snd).countP (fun y => y = m) := by
  induction ms with
  | nil => simp
  | cons a t ih =>
    have ha := h a (by simp)
    rw [List.countP_cons, ih (fun x hx => h x (by simp [hx]))]
    have : ∀ i, ((List.filter (fun x => decide (x.1 = i)) (a :: t)).map Prod.snd).countP (fun y => decide (y = m)) =
        ((List.filter (fun x => decide (x.1 = i)) t).map Prod.snd).countP (fun y => decide (y = m)) +
          if a.1 = i then (if a.2 = m then 1 else 0) else 0 := by
      intro i
      by_cases hi : a.1 = i
      · simp [List.filter_cons, hi, List.countP_cons]
      · simp [List.filter_cons, hi]
    simp only [this]
    rw [Finset.sum_add_distrib, Finset.sum_ite_eq, if_pos (Finset.mem_Icc.2 ha)]
    simp

theorem filter_getLast {ms : List (ℕ × Msg)} {x : ℕ × Msg} (h : ms.getLast? = some x) :
    ((ms.filter (fun y => y.1 = x.1)).map Prod.snd).getLast? = some x.2 := by
  obtain ⟨l, rfl⟩ := List.getLast?_eq_some_iff.1 h
  simp [List.filter_append]

/-- **C72** (progress listener, any schedule).  However the messages of the `n` samplers are interleaved, the listener ends,
exactly when the last sampler has finished: no message is left unread, none is waited for, and every sampler's bar was
advanced by exactly its total, `warmup + steps`. -/
theorem C72_listener (n warmup steps : ℕ) (ms : List (ℕ × Msg))
    (h : IsInterleaving n (fun _ => samplerMessages warmup steps) ms) :
    (listen n 0 (fun _ => 0) ms).2 = ([], true) ∧
    ∀ i, 1 ≤ i → i ≤ n → (listen n 0 (fun _ => 0) ms).1 i = warmup + steps := by
  obtain ⟨hid, hst⟩ := h
  have hc : ms.countP (fun x => x.2 = .finish) = n - 0 := by
    rw [countP_by_id n ms hid .finish]
    have : ∀ i ∈ Finset.Icc 1 n, ((ms.filter (fun x => x.1 = i)).map Prod.snd).countP (fun y => y = .finish) = 1 := by
      intro i hi
      rw [Finset.mem_Icc] at hi
      rw [hst i hi.1 hi.2]
      simp [samplerMessages, List.countP_append, List.countP_replicate]
    rw [Finset.sum_congr rfl this]
    simp
  have hl : ∀ x, ms.getLast? = some x → x.2 = .finish := by
    intro x hx
    have hx' := hid x (List.mem_of_getLast? hx)
    have := filter_getLast hx
    rw [hst x.1 hx'.1 hx'.2] at this
    have e : (samplerMessages warmup steps).getLast? = some .finish := by
      unfold samplerMessages; exact List.getLast?_append_of_ne_nil _ (by simp)
    rw [e] at this
    exact (Option.some.inj this).symm
  obtain ⟨h1, h2⟩ := listen_all n ms 0 (fun _ => 0) (Nat.zero_le _) hc hl
  refine ⟨h1, fun i hi1 hi2 => ?_⟩
  rw [h2 i, zero_add]
  have e : ms.countP (fun x => x.1 = i ∧ x.2 = .update) =
      ((ms.filter (fun x => x.1 = i)).map Prod.snd).countP (fun y => y = .update) := by
    rw [List.countP_map, List.countP_filter]
    apply List.countP_congr
    intro x _
    simp [and_comm]
  rw [e, hst i hi1 hi2]
  simp [samplerMessages, List.countP_append, List.countP_replicate]

/-- **C72, violated when a sampler fails.**  If fewer than `n` samplers send their last message (one raised an exception),
the listener never ends, whatever arrives: the thread stays blocked on the queue. -/
theorem C72_listener_refuted (n : ℕ) (ms : List (ℕ × Msg)) (f : ℕ) (bars : ℕ → ℕ)
    (h : f + ms.countP (fun x => x.2 = .finish) < n) : (listen n f bars ms).2 = ([], false) := by
  induction ms generalizing f bars with
  | nil => simp at h; simp [listen]; omega
  | cons a t ih =>
    obtain ⟨i, m⟩ := a
    rw [List.countP_cons] at h
    cases m <;> rw [listen, if_neg (by omega)] <;> apply ih <;> simp at h <;> omega

example := C72_listener_refuted 2 [(1, .warmup), (1, .update), (1, .finish)] 0 (fun _ => 0) (by decide)

/-- **C72** (start method).  A successful run leaves the process start method as it found it. -/
theorem C72_start_method (method : String) (h : method ≠ "") : runStartMethod method false = method := by
  unfold runStartMethod
  by_cases hm : method = "spawn" <;> simp [hm, h]

example := C72_start_method "spawn" (by decide)

/-- **C72, violated when a sampler fails.**  After a failed run the start method has become `spawn`. -/
theorem C72_start_method_refuted (method : String) : runStartMethod method true = "spawn" := by
  unfold runStartMethod
  by_cases hm : method = "spawn" <;> simp [hm]

/-- **C72** (resuming).  Given states are used as they are, without any warm-up, exactly when there is one per sampler and
each has `chains` walkers of `ndim` coordinates; anything else raises. -/
theorem C72_resume (nParallel chains ndim warmup : ℕ) (fresh ss : List WalkerState) :
    (startStates nParallel chains ndim warmup fresh (some ss) = .ok (ss, 0) ↔
      ss.length = nParallel ∧ ∀ s ∈ ss, s.coords.length = chains ∧ ∀ r ∈ s.coords, r.length = ndim) ∧
    (∀ x, startStates nParallel chains ndim warmup fresh (some ss) = .ok x → x = (ss, 0)) := by
  unfold startStates
  simp only
  constructor
  · by_cases h1 : ss.length = nParallel
    · rw [if_neg (by simpa using h1)]
      by_cases h2 : (ss.any fun s => s.coords.length ≠ chains || s.coords.any fun r => r.length ≠ ndim) = true
      · rw [if_pos h2]
        simp only [List.any_eq_true, Bool.or_eq_true, decide_eq_true_eq] at h2
        obtain ⟨s, hs, h2⟩ := h2
        constructor
        · intro h; cases h
        · rintro ⟨-, h⟩
          rcases h2 with h2 | ⟨r, hr, h2⟩
          · exact absurd (h s hs).1 h2
          · exact absurd ((h s hs).2 r hr) h2
      · rw [if_neg h2]
        simp only [List.any_eq_true, Bool.or_eq_true, decide_eq_true_eq] at h2
        push Not at h2
        exact ⟨fun _ => ⟨h1, fun s hs => h2 s hs⟩, fun _ => rfl⟩
    · rw [if_pos (by simpa using h1)]
      exact ⟨fun h => by simp at h, fun h => absurd h.1 h1⟩
  · intro x hx
    split_ifs at hx
    injection hx with hx
    exact hx.symm

/-- **C72** (seeds).  The jitter and all parallel samplers use pairwise different seeds. -/
theorem C72_seeds (seed0 n : ℕ) :
    (samplerSeeds seed0 n).2.length = n ∧ ((samplerSeeds seed0 n).1 :: (samplerSeeds seed0 n).2).Nodup := by
  unfold samplerSeeds
  refine ⟨by simp, ?_⟩
  rw [List.nodup_cons]
  constructor
  · simp
  · exact List.Nodup.map (fun a b h => by simp at h; omega) List.nodup_range

/-- **C72** (start positions, part that holds).  With jitters in `[0.9, 1.1)` every walker starts within ten percent of the
initial point, on the same side of zero, and two walkers start at different values of a coordinate exactly when their
jitters differ — provided the initial coordinate is not zero. -/
theorem C72_jitter_partial (jitter : ℕ → ℕ → ℕ → ℝ) (hj : ∀ i w d, 9 / 10 ≤ jitter i w d ∧ jitter i w d < 11 / 10)
    (init : ℕ → ℝ) (i w d : ℕ) :
    |jitterInit jitter init i w d - init d| ≤ 1 / 10 * |init d| ∧
    (0 < init d → 0 < jitterInit jitter init i w d) ∧ (init d < 0 → jitterInit jitter init i w d < 0) ∧
    (init d ≠ 0 → ∀ i' w', jitterInit jitter init i w d = jitterInit jitter init i' w' d ↔ jitter i w d = jitter i' w' d) := by
  obtain ⟨h1, h2⟩ := hj i w d
  unfold jitterInit
  refine ⟨?_, fun h => mul_pos (by linarith) h, fun h => by nlinarith, fun h i' w' => ?_⟩
  · have : jitter i w d * init d - init d = (jitter i w d - 1) * init d := by ring
    rw [this, abs_mul]
    apply mul_le_mul_of_nonneg_right _ (abs_nonneg _)
    rw [abs_le]; constructor <;> linarith
  · exact ⟨fun e => mul_right_cancel₀ h e, fun e => by rw [e]⟩

example := C72_jitter_partial (fun i w d => 9 / 10 + 1 / (i + w + d + 10)) (by
  intro i w d
  have h : (0 : ℝ) < i + w + d + 10 := by positivity
  refine ⟨by linarith [one_div_pos.2 h], ?_⟩
  have : (1 : ℝ) / (i + w + d + 10) ≤ 1 / 10 := one_div_le_one_div_of_le (by norm_num) (by linarith [(by positivity : (0 : ℝ) ≤ i + w + d)])
  linarith) (fun d => d - 3)

/-- **C72, violated at zero.**  A coordinate whose initial value is zero (in the unconstrained space: a parameter whose
default is the centre of its bounds) starts at zero for every walker whatever the jitter, and moves that combine
walkers affinely — stretch and differential moves — keep it there for ever. -/
theorem C72_jitter_refuted (jitter : ℕ → ℕ → ℕ → ℝ) (init : ℕ → ℝ) (d : ℕ) (h : init d = 0) :
    (∀ i w, jitterInit jitter init i w d = 0) ∧
    (∀ i w w' (z : ℝ), jitterInit jitter init i w d + z * (jitterInit jitter init i w' d - jitterInit jitter init i w d) = 0) := by
  unfold jitterInit
  simp [h]

example := C72_jitter_refuted (fun i w d => 9 / 10 + 1 / (i + w + d + 10)) (fun d => d - 3) 3 (by norm_num)

/-! ### Names of raveled parameters -/

theorem indices_length (shape : List ℕ) : (indices shape).length = shape.prod := by
  induction shape with
  | nil => rfl
  | cons d ds ih => simp [indices, List.length_flatMap, ih]

theorem mem_indices (shape idx : List ℕ) : idx ∈ indices shape ↔ List.Forall₂ (fun i d => i < d) idx shape := by
  induction shape generalizing idx with
  | nil => simp [indices]
  | cons d ds ih =>
    simp only [indices, List.mem_flatMap, List.mem_range, List.mem_map]
    constructor
    · rintro ⟨i, hi, t, ht, rfl⟩
      exact .cons hi ((ih t).1 ht)
    · intro h
      cases h with
      | cons h1 h2 => exact ⟨_, h1, _, (ih _).2 h2, rfl⟩

theorem indices_sorted (shape : List ℕ) : (indices shape).Pairwise (List.Lex (· < ·)) := by
  induction shape with
  | nil => simp [indices]
  | cons d ds ih =>
    rw [indices, List.pairwise_flatMap]
    refine ⟨fun i _ => ?_, ?_⟩
    · rw [List.pairwise_map]
      exact ih.imp (fun h => List.Lex.cons h)
    · apply List.Pairwise.imp _ (List.pairwise_lt_range)
      intro i j hij a ha b hb
      obtain ⟨x, -, rfl⟩ := List.mem_map.1 ha
      obtain ⟨y, -, rfl⟩ := List.mem_map.1 hb
      exact List.Lex.rel hij

theorem digits_inj {a b : ℕ} (h : Nat.toDigits 10 a = Nat.toDigits 10 b) : a = b := by
  have := congrArg (Nat.ofDigitChars 10 · 0) h
  simpa [Nat.ofDigitChars_ten_toDigits] using this

theorem comma_not_mem (n : ℕ) : ',' ∉ Nat.toDigits 10 n := by
  intro h
  have := Nat.isDigit_of_mem_toDigits (by omega) (by omega) h
  revert this; decide

theorem split_first {c : Char} {a b s t : List Char} (ha : c ∉ a) (hb : c ∉ b) (h : a ++ c :: s = b ++ c :: t) :
    a = b ∧ s = t := by
  induction a generalizing b with
  | nil =>
    cases b with
    | nil => simpa using h
    | cons y b => simp at h; exact absurd (by simp [h.1]) hb
  | cons x a ih =>
    cases b with
    | nil => simp at h; exact absurd (by simp [h.1]) ha
    | cons y b =>
      simp only [List.cons_append, List.cons.injEq] at h
      obtain ⟨h1, h2⟩ := ih (b := b) (fun hc => ha (by simp [hc])) (fun hc => hb (by simp [hc])) h.2
      exact ⟨by rw [h.1, h1], h2⟩

theorem joinIdx_inj : ∀ a b : List ℕ, a.length = b.length → joinIdx a = joinIdx b → a = b
  | [], [], _, _ => rfl
  | [], _ :: _, h, _ => by simp at h
  | _ :: _, [], h, _ => by simp at h
  | [i], [j], _, e => by
      have : i = j := digits_inj (by simpa [joinIdx] using e)
      rw [this]
  | [_], _ :: _ :: _, h, _ => by simp at h
  | _ :: _ :: _, [_], h, _ => by simp at h
  | i :: i' :: a, j :: j' :: b, h, e => by
      simp only [joinIdx] at e
      obtain ⟨h1, h2⟩ := split_first (comma_not_mem i) (comma_not_mem j) e
      rw [digits_inj h1, joinIdx_inj (i' :: a) (j' :: b) (by simpa using h) h2]

/-- **C72** (names of array parameters).  An array parameter gets one name per element, all different, in row-major order
(the multi-indices increase lexicographically and are exactly those within the shape). -/
theorem C72_names (name : List Char) (shape : List ℕ) :
    (ravelNames name shape).length = shape.prod ∧ (ravelNames name shape).Nodup ∧
    (shape ≠ [] → ∃ idx : List (List ℕ), ravelNames name shape = idx.map (fun i => name ++ '[' :: joinIdx i ++ [']']) ∧
      idx.Pairwise (List.Lex (· < ·)) ∧ ∀ i, i ∈ idx ↔ List.Forall₂ (fun i d => i < d) i shape) := by
  unfold ravelNames
  by_cases h : shape = []
  · subst h; simp
  · rw [if_neg h]
    refine ⟨by simp [indices_length], ?_, fun _ => ⟨indices shape, rfl, indices_sorted shape, fun i => mem_indices shape i⟩⟩
    have hnd : (indices shape).Nodup := (indices_sorted shape).imp (fun {a b} hab => by
      rintro rfl
      exact absurd hab (irrefl_of (List.Lex (· < · : ℕ → ℕ → Prop)) a))
    refine List.Nodup.map_on ?_ hnd
    intro a ha b hb e
    simp only [List.append_cancel_left_eq, List.cons_append, List.cons.injEq, List.append_cancel_right_eq,
      true_and, List.append_assoc] at e
    exact joinIdx_inj a b (by rw [((mem_indices _ _).1 ha).length_eq, ((mem_indices _ _).1 hb).length_eq]) e

/-! ### Non-vacuity -/

example : IsInterleaving 2 (fun _ => samplerMessages 1 1)
    [(2, .warmup), (1, .warmup), (1, .update), (2, .update), (1, .sample), (1, .update), (1, .finish), (2, .sample),
      (2, .update), (2, .finish)] := by
  constructor
  · decide
  · intro i h1 h2
    have : i = 1 ∨ i = 2 := by omega
    rcases this with rfl | rfl <;> decide

example : stackSamplers 2 [[["a0", "b0"], ["a1", "b1"], ["a2", "b2"]]] = [["a0", "a1", "a2", "b0", "b1", "b2"]] := by
  decide +kernel

example : ravelNames "x".toList [2, 2] = ["x[0,0]", "x[0,1]", "x[1,0]", "x[1,1]"].map String.toList := by decide +kernel

example : ∃ ss : List WalkerState, startStates 1 2 1 50 [] (some ss) = .ok (ss, 0) :=
  ⟨[⟨[[0], [1]], 7⟩], (C72_resume 1 2 1 50 [] _).1.2 (by simp)⟩

end Elisa.Infer
