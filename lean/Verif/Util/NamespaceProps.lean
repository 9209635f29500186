import Verif.Util.Namespace

/-!
# C34: generated names
-/

namespace Elisa.Util.Names

/-! ## Specification -/

/-- The name at position `i` occurs for the `occurrence names i`-th time there. -/
def occurrence (names : List String) (i : Nat) : Nat := (names.take (i + 1)).count (names.getD i "")

/-- A given name looks like a generated one: it is another given name followed by the suffix of one
of its repeated occurrences. -/
def Ambiguous (s : Style) (names : List String) : Prop :=
  ∃ a ∈ names, ∃ b ∈ names, ∃ k, 2 ≤ k ∧ k ≤ names.count a ∧ b = a ++ suffix s k

/-! ## Suffix numbers -/

theorem suffixLoop_spec (rest : List String) : ∀ (seen : List String) (ns : List String) (counter : String → Nat),
    (∀ x, x ∈ ns ↔ x ∈ seen) → (∀ x ∈ ns, counter x = seen.count x) →
    (suffixLoop ns counter rest).length = rest.length ∧
    ∀ (i : Nat) (x : String), rest[i]? = some x →
      (suffixLoop ns counter rest)[i]? = some ((seen ++ rest.take (i + 1)).count x) := by
  induction rest with
  | nil => intro seen ns counter _ _; simp [suffixLoop]
  | cons name rest ih =>
    intro seen ns counter hns hc
    unfold suffixLoop
    by_cases hm : name ∈ ns
    · simp only [hm, if_true]
      obtain ⟨hl, hi⟩ := ih (seen ++ [name]) ns (Function.update counter name (counter name + 1))
        (by intro x; rw [hns]; simp only [List.mem_append, List.mem_singleton]
            constructor
            · exact Or.inl
            · rintro (h | rfl)
              · exact h
              · exact (hns _).1 hm)
        (by intro x hx
            by_cases hxn : x = name
            · subst hxn; simp [hc _ hm]
            · simp [Function.update_of_ne hxn, hc _ hx, List.count_append, List.count_cons, Ne.symm hxn])
      refine ⟨by simp [hl], ?_⟩
      rintro (_ | i) x hx
      · simp only [List.getElem?_cons_zero, Option.some.injEq] at hx ⊢
        subst hx; simp [hc _ hm]
      · simp only [List.getElem?_cons_succ] at hx ⊢
        rw [hi i x hx]; simp
    · simp only [hm, if_false]
      have hseen : name ∉ seen := fun h => hm ((hns _).2 h)
      obtain ⟨hl, hi⟩ := ih (seen ++ [name]) (ns ++ [name]) (Function.update counter name 1)
        (by intro x; simp [hns])
        (by intro x hx
            by_cases hxn : x = name
            · subst hxn; simp [List.count_eq_zero.2 hseen]
            · have hx' : x ∈ ns := by simpa [hxn] using hx
              simp [Function.update_of_ne hxn, hc _ hx', List.count_append, List.count_cons, Ne.symm hxn])
      refine ⟨by simp [hl], ?_⟩
      rintro (_ | i) x hx
      · simp only [List.getElem?_cons_zero, Option.some.injEq] at hx ⊢
        subst hx; simp [List.count_eq_zero.2 hseen]
      · simp only [List.getElem?_cons_succ] at hx ⊢
        rw [hi i x hx]; simp

theorem suffixNums_length (names : List String) : (suffixNums names).length = names.length :=
  (suffixLoop_spec names [] [] _ (by simp) (by simp)).1

theorem suffixNums_get (names : List String) (i : Nat) (h : i < names.length) :
    (suffixNums names)[i]? = some (occurrence names i) := by
  have := (suffixLoop_spec names [] [] (fun _ => 0) (by simp) (by simp)).2 i names[i]
    (List.getElem?_eq_getElem h)
  rw [suffixNums, this]
  simp [occurrence, List.getD, List.getElem?_eq_getElem h]

theorem buildNamespace_length (s : Style) (names : List String) :
    (buildNamespace s names).length = names.length := by
  simp [buildNamespace, suffixNums_length]

theorem buildNamespace_get (s : Style) (names : List String) (i : Nat) (h : i < names.length) :
    (buildNamespace s names)[i]? = some (names[i] ++ suffix s (occurrence names i)) := by
  simp [buildNamespace, List.getElem?_zipWith, suffixNums_get names i h, List.getElem?_eq_getElem h]

theorem occurrence_pos (names : List String) (i : Nat) (h : i < names.length) : 1 ≤ occurrence names i := by
  unfold occurrence
  have : names.getD i "" = names[i] := by simp [List.getD, List.getElem?_eq_getElem h]
  rw [this]
  refine List.count_pos_iff.2 ?_
  rw [List.mem_take_iff_getElem]
  exact ⟨i, by omega, rfl⟩

theorem occurrence_le (names : List String) (i : Nat) (h : i < names.length) :
    occurrence names i ≤ names.count names[i] := by
  unfold occurrence
  have : names.getD i "" = names[i] := by simp [List.getD, List.getElem?_eq_getElem h]
  rw [this]
  exact (List.take_sublist _ _).count_le _

/-- Later occurrences of the same name have larger numbers. -/
theorem occurrence_lt (names : List String) (i j : Nat) (hij : i < j) (hj : j < names.length)
    (he : names[i]'(by omega) = names[j]) : occurrence names i < occurrence names j := by
  unfold occurrence
  have h1 : names.getD i "" = names[j] := by
    simp [List.getD, List.getElem?_eq_getElem (show i < names.length by omega), he]
  have h2 : names.getD j "" = names[j] := by simp [List.getD, List.getElem?_eq_getElem hj]
  rw [h1, h2, List.take_add_one (i := j), List.count_append, List.getElem?_eq_getElem hj]
  have : (names.take (i + 1)).count names[j] ≤ (names.take j).count names[j] :=
    (List.take_sublist_take_left (by omega)).count_le _
  simp; omega

/-- Every number up to the number of occurrences is used. -/
theorem exists_occurrence (a : String) (names : List String) (k : Nat) (h1 : 1 ≤ k) (h2 : k ≤ names.count a) :
    ∃ i, ∃ h : i < names.length, names[i] = a ∧ occurrence names i = k := by
  induction names using List.reverseRecOn generalizing k with
  | nil => simp at h2; omega
  | append_singleton l x ih =>
    by_cases hk : k ≤ l.count a
    · obtain ⟨i, h, e, o⟩ := ih k h1 hk
      refine ⟨i, by simp; omega, by simp [List.getElem_append_left h, e], ?_⟩
      rw [← o]
      unfold occurrence
      rw [List.take_append_of_le_length (by omega)]
      congr 1
      simp [List.getD, List.getElem?_append_left h]
    · have hx : x = a := by
        by_contra hne
        rw [List.count_append] at h2
        simp [hne] at h2
        omega
      subst hx
      have hk' : k = l.count x + 1 := by
        rw [List.count_append] at h2; simp at h2; omega
      refine ⟨l.length, by simp, by simp, ?_⟩
      unfold occurrence
      have ht : (l ++ [x]).take (l.length + 1) = l ++ [x] := List.take_of_length_le (by simp)
      rw [ht]
      simp [List.getD, hk', List.count_append]

/-! ## Suffix strings -/

theorem split_last {c : Char} {a b d e : List Char} (hd : c ∉ d) (he : c ∉ e)
    (h : a ++ c :: d = b ++ c :: e) : a = b ∧ d = e := by
  have key : ∀ (x y : List Char), c ∉ x → (x.reverse ++ c :: y).takeWhile (fun z => z != c) = x.reverse := by
    intro x y hx
    rw [List.takeWhile_append_of_pos]
    · simp
    · intro z hz
      simp only [List.mem_reverse] at hz
      simp only [bne_iff_ne]
      rintro rfl; exact hx hz
  have h' := congrArg List.reverse h
  simp only [List.reverse_append, List.reverse_cons, List.append_assoc, List.cons_append,
    List.nil_append] at h'
  have h1 := key d a.reverse hd
  have h2 := key e b.reverse he
  rw [h', h2] at h1
  have hde : d = e := List.reverse_inj.1 h1.symm
  subst hde
  have := List.append_cancel_left h'
  simp at this
  exact ⟨this, rfl⟩

theorem repr_inj {m n : Nat} (h : m.repr = n.repr) : m = n := by
  have := congrArg String.toList h
  rw [Nat.toList_repr, Nat.toList_repr] at this
  have := congrArg (fun d => Nat.ofDigitChars 10 d 0) this
  simpa [Nat.ofDigitChars_ten_toDigits] using this

theorem suffix_one (s : Style) {n : Nat} (h : n ≤ 1) : suffix s n = "" := by
  have : n = 0 ∨ n = 1 := by omega
  rcases this with rfl | rfl <;> cases s <;> simp [suffix]

theorem suffix_ne (s : Style) {n : Nat} (h : 2 ≤ n) : suffix s n ≠ "" := by
  intro he
  have := congrArg String.toList he
  cases s with
  | number => simp [suffix, show n > 1 by omega] at this
  | latex => simp [suffix, show n > 1 by omega] at this
  | prime => simp [suffix] at this; omega

/-- Two names with suffixes coincide only if they are the same occurrence of the same name, or one
of the names is the other with a suffix. -/
theorem suffix_collision (s : Style) {a b : String} {m n : Nat} (hm : 1 ≤ m) (hn : 1 ≤ n)
    (h : a ++ suffix s m = b ++ suffix s n) :
    (a = b ∧ m = n) ∨ (∃ k, 2 ≤ k ∧ k ≤ n ∧ a = b ++ suffix s k) ∨
      (∃ k, 2 ≤ k ∧ k ≤ m ∧ b = a ++ suffix s k) := by
  by_cases hm1 : m = 1
  · subst hm1
    rw [suffix_one s (le_refl 1)] at h
    by_cases hn1 : n = 1
    · subst hn1
      rw [suffix_one s (le_refl 1)] at h
      exact .inl ⟨by simpa using h, rfl⟩
    · exact .inr (.inl ⟨n, by omega, le_refl n, by simpa using h⟩)
  · by_cases hn1 : n = 1
    · subst hn1
      rw [suffix_one s (le_refl 1)] at h
      exact .inr (.inr ⟨m, by omega, le_refl m, by simpa using h.symm⟩)
    · have hm2 : m > 1 := by omega
      have hn2 : n > 1 := by omega
      have h' := congrArg String.toList h
      cases s with
      | number =>
        simp only [suffix, hm2, hn2, if_true, String.toList_append, Nat.toList_repr] at h'
        have e : ("_" : String).toList = ['_'] := rfl
        rw [e] at h'
        obtain ⟨h1, h2⟩ := split_last (c := '_') Nat.underscore_not_in_toDigits
          Nat.underscore_not_in_toDigits (by simpa using h')
        left
        refine ⟨String.toList_inj.1 h1, repr_inj (String.toList_inj.1 ?_)⟩
        rw [Nat.toList_repr, Nat.toList_repr, h2]
      | latex =>
        simp only [suffix, hm2, hn2, if_true, String.toList_append, Nat.toList_repr] at h'
        have e : ("_{" : String).toList = ['_', '{'] := rfl
        have e2 : ("}" : String).toList = ['}'] := rfl
        rw [e, e2] at h'
        have hno : ∀ n : Nat, '_' ∉ '{' :: (Nat.toDigits 10 n ++ ['}']) := by
          intro n
          simp only [List.mem_cons, List.mem_append, List.not_mem_nil, or_false, not_or]
          exact ⟨by decide, Nat.underscore_not_in_toDigits, by decide⟩
        obtain ⟨h1, h2⟩ := split_last (c := '_') (hno m) (hno n) (by simpa using h')
        left
        refine ⟨String.toList_inj.1 h1, repr_inj (String.toList_inj.1 ?_)⟩
        rw [Nat.toList_repr, Nat.toList_repr]
        simpa using h2
      | prime =>
        simp only [suffix, String.toList_append, String.toList_ofList] at h'
        rcases Nat.lt_trichotomy m n with hlt | rfl | hgt
        · right; left
          refine ⟨n - m + 1, by omega, by omega, String.toList_inj.1 ?_⟩
          have hsplit : List.replicate (n - 1) '\'' =
              List.replicate (n - m + 1 - 1) '\'' ++ List.replicate (m - 1) '\'' := by
            rw [← List.replicate_add]; congr 1; omega
          rw [hsplit, ← List.append_assoc] at h'
          have := List.append_cancel_right h'
          simp only [suffix, String.toList_append, String.toList_ofList, this]
        · left
          exact ⟨String.toList_inj.1 (List.append_cancel_right h'), rfl⟩
        · right; right
          refine ⟨m - n + 1, by omega, by omega, String.toList_inj.1 ?_⟩
          have hsplit : List.replicate (m - 1) '\'' =
              List.replicate (m - n + 1 - 1) '\'' ++ List.replicate (n - 1) '\'' := by
            rw [← List.replicate_add]; congr 1; omega
          rw [hsplit, ← List.append_assoc] at h'
          have := List.append_cancel_right h'
          simp only [suffix, String.toList_append, String.toList_ofList, this]

/-! ## C34 -/

/-- **C34.** The first occurrence of every name is kept unchanged, later ones get the name followed
by the suffix of their occurrence number; one result per input, in order. -/
theorem C34_shape (s : Style) (names : List String) :
    (buildNamespace s names).length = names.length ∧
    ∀ (i : Nat) (h : i < names.length),
      (buildNamespace s names)[i]? = some (names[i] ++ suffix s (occurrence names i)) ∧
      (names[i] ∉ names.take i → (buildNamespace s names)[i]? = some names[i]) := by
  refine ⟨buildNamespace_length s names, fun i h => ⟨buildNamespace_get s names i h, fun hf => ?_⟩⟩
  rw [buildNamespace_get s names i h]
  have : occurrence names i = 1 := by
    unfold occurrence
    have : names.getD i "" = names[i] := by simp [List.getD, List.getElem?_eq_getElem h]
    rw [this, List.take_add_one, List.count_append, List.count_eq_zero.2 hf, List.getElem?_eq_getElem h]
    simp
  rw [this, suffix_one s (le_refl 1)]
  simp

/-- **C34 (exact condition).** The generated names are pairwise distinct if and only if no given
name looks like a generated one. For all lists of names and the three suffix styles.

The unconditional statement fails, see `C34_distinct_refuted`. -/
theorem C34_distinct_partial (s : Style) (names : List String) :
    (buildNamespace s names).Nodup ↔ ¬ Ambiguous s names := by
  have hget : ∀ (i : Nat) (h : i < (buildNamespace s names).length),
      (buildNamespace s names)[i] = names[i]'(by rw [buildNamespace_length] at h; exact h) ++
        suffix s (occurrence names i) := by
    intro i h
    have h' : i < names.length := by rwa [buildNamespace_length] at h
    have := buildNamespace_get s names i h'
    rw [List.getElem?_eq_getElem h] at this
    exact Option.some.inj this
  constructor
  · rintro hnd ⟨a, ha, b, hb, k, hk2, hkc, rfl⟩
    obtain ⟨i, hi, hia, hio⟩ := exists_occurrence a names k (by omega) hkc
    obtain ⟨j, hj, hja, hjo⟩ := exists_occurrence _ names 1 (le_refl 1) (List.count_pos_iff.2 hb)
    have hi' : i < (buildNamespace s names).length := by rwa [buildNamespace_length]
    have hj' : j < (buildNamespace s names).length := by rwa [buildNamespace_length]
    have e : (buildNamespace s names)[i] = (buildNamespace s names)[j] := by
      rw [hget i hi', hget j hj', hia, hio, hja, hjo, suffix_one s (le_refl 1)]; simp
    have hij : i = j := (List.Nodup.getElem_inj_iff hnd).1 e
    subst hij
    omega
  · intro hamb
    rw [List.nodup_iff_injective_getElem]
    rintro ⟨i, hi⟩ ⟨j, hj⟩ h
    simp only at h
    rw [hget i hi, hget j hj] at h
    have hi' : i < names.length := by rwa [buildNamespace_length] at hi
    have hj' : j < names.length := by rwa [buildNamespace_length] at hj
    rcases suffix_collision s (occurrence_pos names i hi') (occurrence_pos names j hj') h with
      ⟨he, ho⟩ | ⟨k, hk2, hk, he⟩ | ⟨k, hk2, hk, he⟩
    · rcases Nat.lt_trichotomy i j with hlt | rfl | hgt
      · have := occurrence_lt names i j hlt hj' he; omega
      · rfl
      · have := occurrence_lt names j i hgt hi' he.symm; omega
    · exact absurd ⟨_, List.getElem_mem hj', _, List.getElem_mem hi', k, hk2,
        hk.trans (occurrence_le names j hj'), he⟩ hamb
    · exact absurd ⟨_, List.getElem_mem hi', _, List.getElem_mem hj', k, hk2,
        hk.trans (occurrence_le names i hi'), he⟩ hamb

example : buildNamespace .number ["x", "y", "x", "x"] = ["x", "y", "x_2", "x_3"] := by decide +kernel
example : buildNamespace .latex ["x", "y", "x"] = ["x", "y", "x_{2}"] := by decide +kernel
example : buildNamespace .prime ["x", "y", "x", "x"] = ["x", "y", "x'", "x''"] := by decide +kernel

/-- non-vacuity: an unambiguous list with repetitions. -/
example : ¬ Ambiguous .number ["x", "y", "x"] := by
  rw [← C34_distinct_partial]; decide +kernel

/-- **C34 (refuted).** Generated names can coincide: a component class called `x_2` next to two
components `x`; a parameter called `a'` next to two parameters `a`. -/
theorem C34_distinct_refuted :
    ¬ (buildNamespace .number ["x", "x", "x_2"]).Nodup ∧ ¬ (buildNamespace .prime ["a", "a", "a'"]).Nodup := by
  decide +kernel

/-! ### Component names in a fit -/

theorem zipWith_get {α β γ : Type} (f : α → β → γ) (xs : List α) (ys : List β) (i : Nat)
    (h1 : i < xs.length) (h2 : i < ys.length) : (List.zipWith f xs ys)[i]? = some (f xs[i] ys[i]) := by
  simp [List.getElem?_zipWith, List.getElem?_eq_getElem h1, List.getElem?_eq_getElem h2]

theorem addSuffix_num (s : String) (n : Nat) :
    addSuffix true s (if n > 1 then n.repr else "") = s ++ suffix .number n := by
  by_cases h : n > 1
  · have : n.repr ≠ "" := Nat.repr_ne_empty
    simp [addSuffix, suffix, h, this]
  · simp [addSuffix, suffix, h]

theorem fitNames_get (cname dsuf : List String) (hl : cname.length = dsuf.length) (i : Nat)
    (h : i < cname.length) :
    (fitNames cname dsuf)[i]? = some (addSuffix false
      (cname[i] ++ suffix .number (occurrence (List.zipWith (· ++ ·) cname dsuf) i)) (dsuf[i]'(hl ▸ h))) := by
  set z := List.zipWith (· ++ ·) cname dsuf with hz
  have hzl : z.length = cname.length := by simp [hz, hl]
  have hs : (suffixNum z)[i]? =
      some (if occurrence z i > 1 then (occurrence z i).repr else "") := by
    simp [suffixNum, suffixNums_get z i (by omega)]
  have h1 : (List.zipWith (addSuffix true) cname (suffixNum z))[i]? =
      some (cname[i] ++ suffix .number (occurrence z i)) := by
    rw [List.getElem?_zipWith, hs, List.getElem?_eq_getElem h]
    simp only
    rw [addSuffix_num]
  simp only [fitNames]
  rw [← hz, List.getElem?_zipWith, h1, List.getElem?_eq_getElem (hl ▸ h)]

/-- **C34.** Names of the components of a fit (`Name_2[data]`, …) are pairwise distinct whatever the
data set names, as long as component class names contain no `[` and none of them is another one
followed by `_k` (`k ≥ 2`). -/
theorem C34_fit_names_partial (cname dsuf : List String) (hl : cname.length = dsuf.length)
    (hbr : ∀ c ∈ cname, '[' ∉ c.toList)
    (hamb : ∀ a ∈ cname, ∀ b ∈ cname, ∀ k, 2 ≤ k → b ≠ a ++ suffix .number k) :
    (fitNames cname dsuf).Nodup ∧ (fitNames cname dsuf).length = cname.length := by
  have hlen : (fitNames cname dsuf).length = cname.length := by
    simp [fitNames, suffixNum, suffixNums_length, hl]
  refine ⟨?_, hlen⟩
  set z := List.zipWith (· ++ ·) cname dsuf with hz
  have hzl : z.length = cname.length := by simp [hz, hl]
  have hget : ∀ (i : Nat) (h : i < (fitNames cname dsuf).length),
      (fitNames cname dsuf)[i] = addSuffix false
        (cname[i]'(by omega) ++ suffix .number (occurrence z i)) (dsuf[i]'(by omega)) := by
    intro i h
    have := fitNames_get cname dsuf hl i (by omega)
    rw [List.getElem?_eq_getElem h] at this
    exact Option.some.inj this
  -- the numbered class name contains no bracket
  have hsuf : ∀ n, '[' ∉ (suffix .number n).toList := by
    intro n
    simp only [suffix]
    split
    · simp only [String.toList_append, Nat.toList_repr, List.mem_append, not_or]
      refine ⟨by decide, fun hm => ?_⟩
      have := Nat.isDigit_of_mem_toDigits (by omega) (by omega) hm
      exact absurd this (by decide)
    · simp
  have hno : ∀ (i : Nat) (h : i < cname.length),
      '[' ∉ (cname[i] ++ suffix .number (occurrence z i)).toList := by
    intro i h
    rw [String.toList_append, List.mem_append]
    rintro (h' | h')
    · exact hbr _ (List.getElem_mem h) h'
    · exact hsuf _ h'
  have hform : ∀ (a d : String), (addSuffix false a d).toList =
      a.toList ++ (if d = "" then [] else '[' :: (d.toList ++ [']'])) := by
    intro a d
    by_cases h : d = ""
    · simp [addSuffix, h]
    · have e1 : ("[" : String).toList = ['['] := rfl
      have e2 : ("]" : String).toList = [']'] := rfl
      simp [addSuffix, h, e1, e2]
  have hsplit : ∀ (a b d e : String), '[' ∉ a.toList → '[' ∉ b.toList →
      addSuffix false a d = addSuffix false b e → a = b ∧ d = e := by
    intro a b d e ha hb h
    have h' := congrArg String.toList h
    rw [hform, hform] at h'
    have tw : ∀ (x : String) (y : List Char), '[' ∉ x.toList →
        (x.toList ++ '[' :: y).takeWhile (fun c => c != '[') = x.toList := by
      intro x y hx
      rw [List.takeWhile_append_of_pos]
      · simp
      · intro c hc; simp only [bne_iff_ne]; rintro rfl; exact hx hc
    have tw0 : ∀ (x : String), '[' ∉ x.toList → (x.toList).takeWhile (fun c => c != '[') = x.toList := by
      intro x hx
      have := List.takeWhile_append_of_pos (p := fun c => c != '[') (l₁ := x.toList) (l₂ := [])
        (by intro c hc; simp only [bne_iff_ne]; rintro rfl; exact hx hc)
      simpa using this
    have hab : a.toList = b.toList := by
      have := congrArg (List.takeWhile (fun c => c != '[')) h'
      by_cases hd : d = "" <;> by_cases he : e = "" <;> simp only [hd, he, if_true, if_false,
        List.append_nil] at this
      · rw [tw0 a ha, tw0 b hb] at this; exact this
      · rw [tw0 a ha, tw b _ hb] at this; exact this
      · rw [tw a _ ha, tw0 b hb] at this; exact this
      · rw [tw a _ ha, tw b _ hb] at this; exact this
    refine ⟨String.toList_inj.1 hab, ?_⟩
    rw [hab] at h'
    have := List.append_cancel_left h'
    by_cases hd : d = "" <;> by_cases he : e = "" <;> simp [hd, he] at this ⊢
    · exact String.toList_inj.1 this
  rw [List.nodup_iff_injective_getElem]
  rintro ⟨i, hi⟩ ⟨j, hj⟩ h
  simp only at h
  rw [hget i hi, hget j hj] at h
  have hi' : i < cname.length := by omega
  have hj' : j < cname.length := by omega
  obtain ⟨h1, h2⟩ := hsplit _ _ _ _ (hno i hi') (hno j hj') h
  have hci := List.getElem_mem hi'
  have hcj := List.getElem_mem hj'
  rcases suffix_collision .number (occurrence_pos z i (by omega)) (occurrence_pos z j (by omega)) h1 with
    ⟨he, ho⟩ | ⟨k, hk2, _, he⟩ | ⟨k, hk2, _, he⟩
  · have hzz : z[i]'(by omega) = z[j]'(by omega) := by
      simp only [hz, List.getElem_zipWith, he, h2]
    rcases Nat.lt_trichotomy i j with hlt | rfl | hgt
    · have := occurrence_lt z i j hlt (by omega) hzz; omega
    · rfl
    · have := occurrence_lt z j i hgt (by omega) hzz.symm; omega
  · exact absurd he (hamb _ hcj _ hci k hk2)
  · exact absurd he (hamb _ hci _ hcj k hk2)

example : fitNames ["PowerLaw", "PowerLaw", "Band"] ["", "NaI", "NaI"] =
    ["PowerLaw", "PowerLaw[NaI]", "Band[NaI]"] := by decide +kernel
example : fitNames ["PowerLaw", "PowerLaw"] ["NaI", "NaI"] = ["PowerLaw[NaI]", "PowerLaw_2[NaI]"] := by
  decide +kernel

end Elisa.Util.Names
