import Verif.Util.Config
import Mathlib.Data.List.TakeWhile

/-!
# C54: number of parallel workers and the XLA device-count flag
-/

namespace Elisa.Util

open Elisa

/-! ## Helper lemmas on words -/

theorem words_space {c : Char} (r : List Char) (h : isSpace c = true) : words (c :: r) = words r := by
  simp [words, h]

theorem words_word (w : List Char) (hw : w ≠ []) (hs : ∀ x ∈ w, isSpace x = false) : words w = [w] := by
  induction w with
  | nil => exact absurd rfl hw
  | cons a w ih =>
    have ha := hs a (by simp)
    cases w with
    | nil => simp [words, ha]
    | cons b w =>
      have hb := hs b (by simp)
      have := ih (by simp) (fun x hx => hs x (by simp [hx]))
      rw [words]; simp [ha, hb, this]

theorem words_word_space (w : List Char) (c : Char) (r : List Char) (hw : w ≠ [])
    (hs : ∀ x ∈ w, isSpace x = false) (hc : isSpace c = true) :
    words (w ++ c :: r) = w :: words r := by
  induction w with
  | nil => exact absurd rfl hw
  | cons a w ih =>
    have ha := hs a (by simp)
    cases w with
    | nil => simp [words, ha, hc]
    | cons b w =>
      have hb := hs b (by simp)
      have := ih (by simp) (fun x hx => hs x (by simp [hx]))
      rw [List.cons_append, List.cons_append, words]
      simp only [ha, hb]
      rw [← List.cons_append, this]
      simp

/-- Every word is non-empty and free of blanks. -/
theorem words_valid (s : List Char) : ∀ w ∈ words s, w ≠ [] ∧ ∀ x ∈ w, isSpace x = false := by
  induction s with
  | nil => simp [words]
  | cons c cs ih =>
    intro w hw
    rw [words.eq_def] at hw
    simp only at hw
    by_cases hc : isSpace c = true
    · simp [hc] at hw; exact ih w hw
    · have hc' : isSpace c = false := by simpa using hc
      simp only [hc'] at hw
      cases cs with
      | nil => simp at hw; subst hw; simp [hc']
      | cons d ds =>
        simp only [Bool.false_eq_true, if_false] at hw
        by_cases hd : isSpace d = true
        · simp only [hd, if_true, List.mem_cons] at hw
          rcases hw with rfl | hw
          · simp [hc']
          · exact ih w hw
        · simp only [hd] at hw
          revert hw
          cases hww : words (d :: ds) with
          | nil => simp; rintro rfl; simp [hc']
          | cons v vs =>
            simp only [Bool.false_eq_true, if_false, List.mem_cons]
            rintro (rfl | hw)
            · have := ih v (by simp [hww])
              refine ⟨by simp, ?_⟩
              intro x hx
              rcases List.mem_cons.1 hx with rfl | hx
              · exact hc'
              · exact this.2 x hx
            · exact ih w (by simp [hww, hw])

theorem words_unwords (ws : List (List Char)) (h : ∀ w ∈ ws, w ≠ [] ∧ ∀ x ∈ w, isSpace x = false) :
    words (unwords ws) = ws := by
  induction ws with
  | nil => rfl
  | cons w ws ih =>
    have hw := h w (by simp)
    cases ws with
    | nil => exact words_word w hw.1 hw.2
    | cons v vs =>
      rw [unwords, words_word_space w ' ' _ hw.1 hw.2 rfl, ih fun x hx => h x (by simp [hx])]

/-! ## Helper lemmas on the substitution -/

theorem flag_no_space : ∀ x ∈ flagName, isSpace x = false := by decide

theorem dropPrefix?_some {s rest : List Char} (h : s.dropPrefix? flagName = some rest) :
    s = flagName ++ rest := (List.dropPrefix?_eq_some_iff.1 h).elim fun p hp => by
      have h1 := hp.1
      have h2 := hp.2
      rw [h1]
      congr 1
      exact (eq_of_beq h2)

theorem dropPrefix?_append (rest : List Char) : (flagName ++ rest).dropPrefix? flagName = some rest :=
  List.dropPrefix?_append_of_beq rest (by simp)

/-- At a position where the literal does not start, the scan keeps the character. -/
theorem strip_keep (fuel : Nat) (c : Char) (cs : List Char) (h : ¬ flagName <+: c :: cs) :
    stripFlagAux (fuel + 1) (c :: cs) = c :: stripFlagAux fuel cs := by
  rw [stripFlagAux]
  cases hd : (c :: cs).dropPrefix? flagName with
  | none => rfl
  | some rest => exact absurd ⟨rest, (dropPrefix?_some hd).symm⟩ h

theorem strip_nil (fuel : Nat) : stripFlagAux fuel [] = [] := by cases fuel <;> rfl

/-- More steps than characters make no difference. -/
theorem strip_fuel (n : Nat) : ∀ (s : List Char) (fuel : Nat), s.length ≤ n → s.length ≤ fuel →
    stripFlagAux fuel s = stripFlagAux s.length s := by
  induction n with
  | zero =>
    intro s fuel h _
    have : s = [] := List.length_eq_zero_iff.1 (by omega)
    subst this; rw [strip_nil, strip_nil]
  | succ n ih =>
    intro s fuel h hf
    cases s with
    | nil => rw [strip_nil, strip_nil]
    | cons c cs =>
      cases fuel with
      | zero => simp at hf
      | succ fuel =>
        have hcs : cs.length ≤ n := by simpa using h
        have hcf : cs.length ≤ fuel := by simpa using hf
        rw [List.length_cons, stripFlagAux, stripFlagAux]
        cases hd : (c :: cs).dropPrefix? flagName with
        | none => simp only; rw [ih cs fuel hcs hcf]
        | some rest =>
          simp only
          have hr := congrArg List.length (dropPrefix?_some hd)
          have hl : flagName.length = 39 := by decide
          simp [hl] at hr
          have hdw : (rest.dropWhile fun x => !isSpace x).length ≤ rest.length :=
            (List.dropWhile_suffix _).length_le
          split
          · rw [ih cs fuel hcs hcf]
          · rw [ih _ fuel (by omega) (by omega), ih _ cs.length (by omega) (by omega)]

theorem strip_space (c : Char) (r : List Char) (hc : isSpace c = true) :
    stripFlag (c :: r) = c :: stripFlag r := by
  rw [stripFlag, List.length_cons, strip_keep]
  · rfl
  · intro h
    have : c ∈ flagName ∨ flagName = [] := by
      obtain ⟨t, ht⟩ := h
      cases hf : flagName with
      | nil => simp
      | cons a l => left; rw [hf] at ht; simp at ht; simp [ht.1]
    rcases this with h' | h'
    · rw [flag_no_space c h'] at hc; cases hc
    · exact absurd h' (by decide)

/-- A literal prefix cannot reach over a blank. -/
theorem prefix_before_space {w : List Char} {r : List Char} (hr : r = [] ∨ ∃ c r', r = c :: r' ∧ isSpace c = true)
    (h : flagName <+: w ++ r) : flagName <+: w := by
  rcases hr with rfl | ⟨c, r', rfl, hc⟩
  · simpa using h
  · rcases List.prefix_append_right_inj [] |>.1 (show [] ++ flagName <+: [] ++ (w ++ c :: r') by simpa using h) with h
    obtain ⟨t, ht⟩ := h
    rcases List.append_eq_append_iff.1 ht with ⟨a, ha, _⟩ | ⟨b, hb, hb'⟩
    · exact ⟨a, ha.symm⟩
    · cases b with
      | nil => exact ⟨[], by simpa using hb⟩
      | cons x b =>
        simp at hb'
        have : c ∈ flagName := by rw [hb, hb'.1]; simp
        rw [flag_no_space c this] at hc; cases hc

/-- Text without the literal is kept as it is. -/
theorem strip_other (w : List Char) (r : List Char)
    (hr : r = [] ∨ ∃ c r', r = c :: r' ∧ isSpace c = true)
    (h : ¬ flagName <:+: w) : stripFlag (w ++ r) = w ++ stripFlag r := by
  induction w with
  | nil => rfl
  | cons a w ih =>
    have h1 : ¬ flagName <+: (a :: w) ++ r := fun hp => h (prefix_before_space hr hp).isInfix
    have h2 : ¬ flagName <:+: w := fun hp => h (hp.trans (List.suffix_cons a w).isInfix)
    rw [stripFlag, List.cons_append, List.length_cons, strip_keep _ _ _ (by simpa using h1)]
    have := ih h2
    rw [stripFlag] at this
    rw [this]; rfl

/-- The literal with its value is removed. -/
theorem strip_flag (v : List Char) (r : List Char) (hv : v ≠ []) (hs : ∀ x ∈ v, isSpace x = false)
    (hr : r = [] ∨ ∃ c r', r = c :: r' ∧ isSpace c = true) :
    stripFlag (flagName ++ v ++ r) = stripFlag r := by
  obtain ⟨a, l, hf⟩ : ∃ a l, flagName = a :: l := ⟨_, _, rfl⟩
  have hlen : (flagName ++ v ++ r).length = (l ++ v ++ r).length + 1 := by simp [hf]
  have hcons : flagName ++ v ++ r = a :: (l ++ v ++ r) := by simp [hf]
  rw [stripFlag, hlen]
  conv_lhs => rw [hcons]
  rw [stripFlagAux, ← hcons, List.append_assoc, dropPrefix?_append]
  cases v with
  | nil => exact absurd rfl hv
  | cons b v =>
    have hb := hs b (by simp)
    simp only [List.cons_append, List.head?_cons, Option.map_some, hb, Option.getD_some,
      Bool.false_eq_true, if_false]
    have hdw : (b :: (v ++ r)).dropWhile (fun x => !isSpace x) = r := by
      rw [← List.cons_append, List.dropWhile_append_of_pos]
      · rcases hr with rfl | ⟨c, r', rfl, hc⟩
        · rfl
        · simp [List.dropWhile, hc]
      · intro x hx; simp [hs x hx]
    rw [hdw, strip_fuel _ r _ le_rfl (by simp; omega)]
    rfl

/-- A text is blank-free, starts with a blank, or is a word followed by a blank. -/
theorem split_word (s : List Char) (hne : s ≠ []) : (∃ c r, s = c :: r ∧ isSpace c = true) ∨
    (∃ w r, s = w ++ r ∧ w ≠ [] ∧ (∀ x ∈ w, isSpace x = false) ∧
      (r = [] ∨ ∃ c r', r = c :: r' ∧ isSpace c = true)) := by
  cases s with
  | nil => exact absurd rfl hne
  | cons c cs =>
    by_cases hc : isSpace c = true
    · exact .inl ⟨c, cs, rfl, hc⟩
    · right
      refine ⟨(c :: cs).takeWhile fun x => !isSpace x, (c :: cs).dropWhile fun x => !isSpace x,
        (List.takeWhile_append_dropWhile).symm, ?_, ?_, ?_⟩
      · simp [List.takeWhile, hc]
      · intro x hx; simpa using List.mem_takeWhile_imp hx
      · cases h : (c :: cs).dropWhile fun x => !isSpace x with
        | nil => exact .inl rfl
        | cons d r' =>
          right
          refine ⟨d, r', rfl, ?_⟩
          have := List.head_dropWhile_not (fun x => !isSpace x) (l := c :: cs) (by simp [h])
          simpa [h] using this

/-- On texts whose words either are a complete device-count flag or do not contain its name, the
substitution removes exactly the former words. -/
theorem words_strip (n : Nat) : ∀ s : List Char, s.length ≤ n →
    (∀ w ∈ words s, (∃ v, v ≠ [] ∧ w = flagName ++ v) ∨ ¬ flagName <:+: w) →
    words (stripFlag s) = (words s).filter fun w => !flagName.isPrefixOf w := by
  induction n with
  | zero =>
    intro s h _
    have : s = [] := List.length_eq_zero_iff.1 (by omega)
    subst this; rfl
  | succ n ih =>
    intro s h hw
    by_cases hne : s = []
    · subst hne; rfl
    rcases split_word s hne with ⟨c, r, rfl, hc⟩ | ⟨w, r, rfl, hw0, hws, hr⟩
    · rw [strip_space c r hc, words_space _ hc, words_space _ hc]
      rw [words_space _ hc] at hw
      exact ih r (by simp at h; omega) hw
    · have hwords : words (w ++ r) = w :: words r := by
        rcases hr with rfl | ⟨c, r', rfl, hc⟩
        · simp [words_word w hw0 hws, words]
        · rw [words_word_space w c r' hw0 hws hc, words_space _ hc]
      rw [hwords] at hw ⊢
      have hlen : r.length ≤ n := by
        have : 0 < w.length := List.length_pos_iff.2 hw0
        simp at h; omega
      have ihr := ih r hlen fun x hx => hw x (by simp [hx])
      rcases hw w (by simp) with ⟨v, hv, rfl⟩ | hno
      · have hvs : ∀ x ∈ v, isSpace x = false := fun x hx => hws x (by simp [hx])
        rw [strip_flag v r hv hvs hr, ihr]
        have : flagName.isPrefixOf (flagName ++ v) = true := List.isPrefixOf_iff_prefix.2 ⟨v, rfl⟩
        simp [this]
      · rw [strip_other w r hr hno]
        have hpre : flagName.isPrefixOf w = false := by
          rw [Bool.eq_false_iff]; intro hp
          exact hno (List.isPrefixOf_iff_prefix.1 hp).isInfix
        have : words (w ++ stripFlag r) = w :: words (stripFlag r) := by
          rcases hr with rfl | ⟨c, r', rfl, hc⟩
          · have : stripFlag [] = [] := rfl
            simp [this, words_word w hw0 hws, words]
          · rw [strip_space c r' hc, words_word_space w c _ hw0 hws hc, words_space _ hc]
        rw [this, ihr]
        simp [hpre]

/-! ## Decimal numerals -/

theorem isDigit_not_space {c : Char} (h : c.isDigit = true) : isSpace c = false := by
  unfold isSpace
  simp only [Bool.or_eq_false_iff, decide_eq_false_iff_not]
  refine ⟨⟨⟨⟨⟨?_, ?_⟩, ?_⟩, ?_⟩, ?_⟩, ?_⟩ <;> rintro rfl <;> exact absurd h (by decide)

theorem showNat_valid (n : Nat) : (Nat.repr n).toList ≠ [] ∧ ∀ x ∈ (Nat.repr n).toList, isSpace x = false := by
  rw [Nat.repr]
  simp only [String.toList_ofList]
  exact ⟨Nat.toDigits_ne_nil,
    fun x hx => isDigit_not_space (Nat.isDigit_of_mem_toDigits (by omega) (by omega) hx)⟩

theorem showInt_valid (n : Int) : ∀ x ∈ showInt n, isSpace x = false := by
  intro x hx
  cases n with
  | ofNat n => exact (showNat_valid n).2 x hx
  | negSucc n =>
    have hx' : x ∈ ("-" ++ Nat.repr n.succ).toList := hx
    rw [String.toList_append, List.mem_append] at hx'
    rcases hx' with h | h
    · have : x = '-' := by simpa using h
      subst this; rfl
    · exact (showNat_valid _).2 x h

/-! ## The property -/

/-- **C54**, worker number: with at least one device, `get_parallel_number` raises exactly for a requested
number that is not positive, and otherwise returns the requested number limited to the number of
devices (all devices when nothing is requested); the result is between 1 and the number of
devices. -/
theorem C54_get_parallel_number (nMax : Nat) (hMax : 1 ≤ nMax) (n : Option Int) :
    (∀ r, getParallelNumber nMax n = .ok r → 1 ≤ r ∧ r ≤ nMax ∧ (∀ k, n = some k → (r : Int) = min k nMax)
      ∧ (n = none → r = nMax)) ∧
    (∀ e, getParallelNumber nMax n = .error e → e = .valueError ∧ ∃ k ≤ 0, n = some k) ∧
    (∀ k ≤ 0, n = some k → getParallelNumber nMax n = .error .valueError) := by
  cases n with
  | none => simp [getParallelNumber, hMax]
  | some k =>
    unfold getParallelNumber
    simp only
    by_cases h0 : k ≤ 0
    · simp [h0]
    · by_cases h1 : (nMax : Int) < k
      · simp only [h0, h1, if_true, if_false]
        refine ⟨?_, by simp, fun k' hk' h => ?_⟩
        · rintro r ⟨⟩
          refine ⟨hMax, le_rfl, fun k' h => ?_, by simp⟩
          cases h; omega
        · cases h; omega
      · simp only [h0, h1, if_false]
        refine ⟨?_, by simp, fun k' hk' h => ?_⟩
        · rintro r ⟨⟩
          refine ⟨by omega, by omega, fun k' h => ?_, by simp⟩
          cases h; omega
        · cases h; omega

example : getParallelNumber 4 (some 7) = .ok 4 := rfl
example : getParallelNumber 4 (some 3) = .ok 3 := rfl
example : getParallelNumber 4 (some 0) = .error .valueError := rfl

/-- **C54**, device-count flag (partial): when the requested number is positive and the machine has enough
cores (or at least two), and each word of the previous flags is either a complete device-count
flag or does not contain its name, the new value of `XLA_FLAGS` consists of exactly one device-count
flag with a positive count not above the number of cores, followed by all other previous flags in
their order.  Missing from the full property: see `C54_set_cpu_cores_refuted`. -/
theorem C54_set_cpu_cores_partial (total : Nat) (n : Int) (old : List Char) (htot : 1 ≤ total) (hn : 1 ≤ n)
    (henough : n ≤ total ∨ 2 ≤ total)
    (hold : ∀ w ∈ words old, (∃ v, v ≠ [] ∧ w = flagName ++ v) ∨ ¬ flagName <:+: w) :
    ∃ k : Nat, 1 ≤ k ∧ k ≤ total ∧ (n ≤ total → (k : Int) = n) ∧
      words (setCpuCores total n old) = (flagName ++ (toString k).toList) ::
        (words old).filter fun w => !flagName.isPrefixOf w := by
  have hk : 1 ≤ coresUsed total n ∧ coresUsed total n ≤ total ∧ (n ≤ total → coresUsed total n = n) := by
    unfold coresUsed; split <;> omega
  obtain ⟨k, hk'⟩ := Int.eq_ofNat_of_zero_le (show 0 ≤ coresUsed total n by omega)
  refine ⟨k, by omega, by omega, fun h => by have := hk.2.2 h; omega, ?_⟩
  unfold setCpuCores
  have hshow : showInt (coresUsed total n) = (toString k).toList := by rw [hk']; rfl
  rw [words_unwords, words_strip _ old le_rfl hold, hshow]
  · intro w hw
    rcases List.mem_cons.1 hw with rfl | hw
    · refine ⟨fun h0 => absurd (List.append_eq_nil_iff.1 h0).1 (by decide), fun x hx => ?_⟩
      rcases List.mem_append.1 hx with h | h
      · exact flag_no_space x h
      · exact showInt_valid _ x h
    · exact words_valid _ w hw

/-- The hypotheses hold for ordinary flags, and other flags are kept. -/
example : words (setCpuCores 8 4 "--xla_a=1  --xla_force_host_platform_device_count=2 --b".toList) =
    ["--xla_force_host_platform_device_count=4".toList, "--xla_a=1".toList, "--b".toList] := by
  decide +kernel

example : ∀ w ∈ words "--xla_a=1  --xla_force_host_platform_device_count=2 --b".toList,
    (∃ v, v ≠ [] ∧ w = flagName ++ v) ∨ ¬ flagName <:+: w := by
  have h : words "--xla_a=1  --xla_force_host_platform_device_count=2 --b".toList =
    ["--xla_a=1".toList, flagName ++ ['2'], "--b".toList] := by decide +kernel
  rw [h]
  intro w hw
  simp only [List.mem_cons, List.not_mem_nil, or_false] at hw
  rcases hw with rfl | rfl | rfl
  · right; intro h; exact absurd h.length_le (by decide)
  · left; exact ⟨['2'], by simp, rfl⟩
  · right; intro h; exact absurd h.length_le (by decide)

/-- **C54** is violated by `set_cpu_cores` outside those conditions: on a single-core machine a request for two
cores asks XLA for zero devices; a request for a negative number of cores is passed on unchecked; and a
previous flag with an empty value stays, so that two device-count flags remain. -/
theorem C54_set_cpu_cores_refuted :
    words (setCpuCores 1 2 []) = [flagName ++ ['0']] ∧
    words (setCpuCores 4 (-3) []) = [flagName ++ ['-', '3']] ∧
    words (setCpuCores 4 2 (flagName ++ " --b".toList)) = [flagName ++ ['2'], flagName, "--b".toList] := by
  refine ⟨?_, ?_, ?_⟩ <;> decide +kernel

/-- **C54**, related setting: `jax_enable_x64(False)` leaves double precision off only when the environment
variable is unset or empty; with `JAX_ENABLE_X64=0` it switches double precision on. -/
theorem C54_enable_x64_refuted :
    (∀ env, jaxEnableX64 true env = true) ∧ jaxEnableX64 false none = false ∧
      jaxEnableX64 false (some "0") = true ∧ jaxEnableX64 false (some "False") = true := by
  refine ⟨fun _ => rfl, rfl, rfl, rfl⟩

end Elisa.Util
