import Verif.Util.UnitLabel
import Mathlib.Tactic

/-!
# C112: the label of a unit shows the unit
-/

namespace Elisa.Util.Unit

open Elisa Elisa.Models.Algebra

/-! ## Reading a label -/

/-- The parts of a label, separated by blanks in TeX. -/
def pieces (acc : List Char) : List Char → List (List Char)
  | [] => [acc]
  | [c] => [acc ++ [c]]
  | c :: d :: cs => if c = '\\' ∧ d = ' ' then acc :: pieces [] cs else pieces (acc ++ [c]) (d :: cs)

/-- A base with an exponent in braces; without, the power is one. -/
def readBase (p : List Char) : List Char × List Char :=
  (p.takeWhile (· ≠ '^'), if p.dropWhile (· ≠ '^') = [] then ['1'] else ((p.dropWhile (· ≠ '^')).drop 2).dropLast)

/-- A part that begins with a digit or a sign is a number. -/
def isNumber (p : List Char) : Bool := match p.head? with
  | none => false
  | some c => c.isDigit || c = '-' || c = '.'

/-- A number, if any, and bases with powers. -/
def readUnit (inner : List Char) : List Char × List (List Char × List Char) :=
  match pieces [] inner with
  | [] => ([], [])
  | p :: ps => if isNumber p then (p, ps.map readBase) else ([], (p :: ps).map readBase)

/-- The names of units are words of letters; powers are numbers or fractions; the power `1` is the one that is not printed. -/
structure Base.Plain (b : Base) : Prop where
  ne : b.name ≠ []
  letters : ∀ c ∈ b.name, c.isAlpha = true
  power : ∀ c ∈ b.power, c ≠ '\\' ∧ c ≠ '^'
  one : b.one = true → b.power = ['1']

/-- A printed number. -/
def Numeric (m : List Char) : Prop := m ≠ [] ∧ ∀ c ∈ m, (c.isDigit || c = '-' || c = '.') = true

/-- The scale as astropy prints it: nothing, or a number with or without a power of ten. -/
structure Scale.Printed (s : Scale) : Prop where
  mantissa : s.exponent ≠ none ∨ s.mantissa ≠ [] → Numeric s.mantissa
  exponent : ∀ e, s.exponent = some e → Numeric e

/-- What should be shown of a scale: a mantissa of one in front of a power of ten is left out. -/
def Scale.proper (s : Scale) : List Char :=
  match s.exponent with
  | none => s.mantissa
  | some e => (if s.mantissa = ['1'] then [] else s.mantissa ++ " \\times ".toList) ++ "10^{".toList ++ e ++ "}".toList

/-! ## Splitting -/

/-- No blank in TeX inside. -/
def NoBreak (u : List Char) : Prop := ¬ ['\\', ' '] <:+: u

theorem NoBreak.tail {c : Char} {u : List Char} (h : NoBreak (c :: u)) : NoBreak u := fun h' => h (h'.trans (List.suffix_cons c u).isInfix)

theorem pieces_break (u rest acc : List Char) (h : NoBreak u) : pieces acc (u ++ '\\' :: ' ' :: rest) = (acc ++ u) :: pieces [] rest := by
  induction u generalizing acc with
  | nil => simp [pieces]
  | cons c u ih =>
    cases u with
    | nil =>
      have : ¬ (c = '\\' ∧ ('\\' : Char) = ' ') := fun h => absurd h.2 (by decide)
      simp only [List.singleton_append, List.cons_append, List.nil_append, pieces]
      rw [if_neg this]
      simp
    | cons d u =>
      have hn : ¬ (c = '\\' ∧ d = ' ') := by
        rintro ⟨rfl, rfl⟩
        exact h ⟨[], u, rfl⟩
      simp only [List.cons_append, pieces]
      rw [if_neg hn]
      have := ih (acc ++ [c]) h.tail
      simpa using this

theorem pieces_end (u acc : List Char) (h : NoBreak u) : pieces acc u = [acc ++ u] := by
  induction u generalizing acc with
  | nil => simp [pieces]
  | cons c u ih =>
    cases u with
    | nil => simp [pieces]
    | cons d u =>
      have hn : ¬ (c = '\\' ∧ d = ' ') := by
        rintro ⟨rfl, rfl⟩
        exact h ⟨[], u, rfl⟩
      simp only [pieces]
      rw [if_neg hn, ih _ h.tail]
      simp

theorem noBreak_of {u : List Char} (h : ∀ c ∈ u, c ≠ '\\') : NoBreak u := by
  rintro ⟨a, b, rfl⟩
  exact h '\\' (by simp) rfl

theorem alpha_ne {c : Char} (h : c.isAlpha = true) : c ≠ '\\' ∧ c ≠ '^' ∧ (c.isDigit || c = '-' || c = '.') = false := by
  refine ⟨?_, ?_, ?_⟩
  · rintro rfl; exact absurd h (by decide)
  · rintro rfl; exact absurd h (by decide)
  · have hd : c.isDigit = false := by
      simp only [Char.isAlpha, Char.isUpper, Char.isLower, Char.isDigit, Bool.or_eq_true, Bool.and_eq_true, decide_eq_true_eq, Bool.and_eq_false_iff, decide_eq_false_iff_not] at h ⊢
      rcases h with ⟨h1, h2⟩ | ⟨h1, h2⟩
      · right
        intro h3
        exact absurd (UInt32.le_trans h1 h3) (by decide)
      · right
        intro h3
        exact absurd (UInt32.le_trans h1 h3) (by decide)
    have h1 : c ≠ '-' := by rintro rfl; exact absurd h (by decide)
    have h2 : c ≠ '.' := by rintro rfl; exact absurd h (by decide)
    simp [hd, h1, h2]

theorem base_noBreak {b : Base} (h : b.Plain) : NoBreak b.text := by
  apply noBreak_of
  intro c hc
  unfold Base.text at hc
  split_ifs at hc
  · exact (alpha_ne (h.letters c hc)).1
  · simp only [List.mem_append] at hc
    rcases hc with ((hc | hc) | hc) | hc
    · exact (alpha_ne (h.letters c hc)).1
    · rintro rfl; exact absurd hc (by decide)
    · exact (h.power c hc).1
    · rintro rfl; exact absurd hc (by decide)

theorem takeWhile_name {b : Base} (h : b.Plain) (rest : List Char) (hr : ∀ c ∈ rest.head?, c = '^') :
    (b.name ++ rest).takeWhile (· ≠ '^') = b.name ∧ (b.name ++ rest).dropWhile (· ≠ '^') = rest := by
  have hn : ∀ c ∈ b.name, decide (c ≠ '^') = true := fun c hc => by simpa using (alpha_ne (h.letters c hc)).2.1
  constructor
  · rw [List.takeWhile_append_of_pos hn]
    cases rest with
    | nil => simp
    | cons c rest =>
      have := hr c rfl
      subst this
      simp
  · rw [List.dropWhile_append_of_pos hn]
    cases rest with
    | nil => simp
    | cons c rest =>
      have := hr c rfl
      subst this
      simp

theorem readBase_text {b : Base} (h : b.Plain) : readBase b.text = (b.name, b.power) := by
  unfold readBase Base.text
  split_ifs with h1 h2 h2
  · rw [← List.append_nil b.name, (takeWhile_name h [] (by simp)).1, h.one h1, List.append_nil]
  · have := (takeWhile_name h [] (by simp)).2
    rw [List.append_nil] at this
    exact absurd this h2
  · have := (takeWhile_name h ("^{".toList ++ b.power ++ "}".toList) (by simp)).2
    rw [← List.append_assoc, ← List.append_assoc] at this
    rw [this] at h2
    simp at h2
  · have h3 := (takeWhile_name h ("^{".toList ++ b.power ++ "}".toList) (by simp)).1
    have h4 := (takeWhile_name h ("^{".toList ++ b.power ++ "}".toList) (by simp)).2
    rw [← List.append_assoc, ← List.append_assoc] at h3 h4
    rw [h3, h4]
    simp

theorem pieces_join (bs : List Base) (hne : bs ≠ []) (h : ∀ b ∈ bs, b.Plain) : pieces [] (joinBases bs) = bs.map Base.text := by
  induction bs with
  | nil => exact absurd rfl hne
  | cons b bs ih =>
    cases bs with
    | nil =>
      simp only [joinBases]
      rw [pieces_end _ _ (base_noBreak (h b (by simp)))]
      simp
    | cons c bs =>
      simp only [joinBases, List.append_assoc]
      show pieces [] (b.text ++ '\\' :: ' ' :: joinBases (c :: bs)) = _
      rw [pieces_break _ _ _ (base_noBreak (h b (by simp))), ih (by simp) (fun x hx => h x (by simp [hx]))]
      simp

theorem base_not_number {b : Base} (h : b.Plain) : isNumber b.text = false := by
  obtain ⟨c, cs, hc⟩ := List.exists_cons_of_ne_nil h.ne
  have hh : b.text.head? = some c := by
    unfold Base.text
    split_ifs <;> simp [hc]
  simp only [isNumber, hh]
  exact (alpha_ne (h.letters c (by simp [hc]))).2.2

/-! ## The scale -/

theorem copy_char (c : Char) (cs : List Char) (h : c ≠ '1' ∨ ∀ d ∈ cs.head?, d ≠ ' ') :
    replaceAll "1 \\times ".toList [] 0 (c :: cs) = c :: replaceAll "1 \\times ".toList [] 0 cs := by
  have hp : List.isPrefixOf "1 \\times ".toList (c :: cs) = false := by
    show List.isPrefixOf ('1' :: ' ' :: "\\times ".toList) (c :: cs) = false
    rcases h with h | h
    · have : ('1' == c) = false := by simpa using Ne.symm h
      simp only [List.isPrefixOf, this, Bool.false_and]
    · cases cs with
      | nil => simp only [List.isPrefixOf, Bool.and_false]
      | cons d cs =>
        have : (' ' == d) = false := by simpa using Ne.symm (h d rfl)
        simp only [List.isPrefixOf, this, Bool.false_and, Bool.and_false]
  rw [replaceAll, hp]
  rfl

theorem copy_text (u rest : List Char) (hu : ∀ c ∈ u, c ≠ ' ') (hr : (∀ c ∈ u.getLast?, c ≠ '1') ∨ ∀ d ∈ rest.head?, d ≠ ' ') :
    replaceAll "1 \\times ".toList [] 0 (u ++ rest) = u ++ replaceAll "1 \\times ".toList [] 0 rest := by
  induction u with
  | nil => rfl
  | cons c u ih =>
    rw [List.cons_append, copy_char, ih (fun x hx => hu x (by simp [hx]))]
    · rfl
    · cases u with
      | nil => rcases hr with _ | hr
               · exact .inl (by simp)
               · exact .inr hr
      | cons d u => rcases hr with hr | hr
                    · exact .inl (by simpa using hr)
                    · exact .inr hr
    · cases u with
      | nil => rcases hr with hr | hr
               · exact .inl (hr c (by simp))
               · exact .inr hr
      | cons d u => exact .inr fun x hx => by
                      have hx' : d = x := by simpa using hx
                      exact hx' ▸ hu d (by simp)

theorem numeric_ne {m : List Char} (h : ∀ c ∈ m, (c.isDigit || c = '-' || c = '.') = true) : ∀ c ∈ m, c ≠ ' ' ∧ c ≠ '\\' := by
  intro c hc
  have := h c hc
  constructor <;> rintro rfl <;> exact absurd this (by decide)

theorem tail_copied (e : List Char) (he : ∀ c ∈ e, (c.isDigit || c = '-' || c = '.') = true) :
    replaceAll "1 \\times ".toList [] 0 ("10^{".toList ++ e ++ "}".toList) = "10^{".toList ++ e ++ "}".toList := by
  have := copy_text ("10^{".toList ++ e ++ "}".toList) [] ?_ (.inr (by simp))
  · simpa [replaceAll] using this
  · intro c hc
    simp only [List.mem_append] at hc
    rcases hc with (hc | hc) | hc
    · rintro rfl; exact absurd hc (by decide)
    · exact (numeric_ne he c hc).1
    · rintro rfl; exact absurd hc (by decide)

/-- A mantissa ending in one loses that digit. -/
theorem shown_one (m e : List Char) (hm : ∀ c ∈ m, (c.isDigit || c = '-' || c = '.') = true) (he : ∀ c ∈ e, (c.isDigit || c = '-' || c = '.') = true) :
    Scale.shown ⟨m ++ ['1'], some e⟩ = m ++ "10^{".toList ++ e ++ "}".toList := by
  unfold Scale.shown Scale.text
  have : m ++ ['1'] ++ " \\times ".toList ++ "10^{".toList ++ e ++ "}".toList = m ++ ("1 \\times ".toList ++ ("10^{".toList ++ e ++ "}".toList)) := by simp
  simp only []
  rw [this, copy_text m _ (fun c hc => (numeric_ne hm c hc).1) (.inr (by simp))]
  have hw : replaceAll "1 \\times ".toList [] 0 ("1 \\times ".toList ++ ("10^{".toList ++ e ++ "}".toList)) = replaceAll "1 \\times ".toList [] 0 ("10^{".toList ++ e ++ "}".toList) := by
    simp [replaceAll]
  rw [hw, tail_copied e he]
  simp

theorem shown_other (m e : List Char) (hm : ∀ c ∈ m, (c.isDigit || c = '-' || c = '.') = true) (he : ∀ c ∈ e, (c.isDigit || c = '-' || c = '.') = true)
    (hl : ∀ c ∈ m.getLast?, c ≠ '1') : Scale.shown ⟨m, some e⟩ = m ++ " \\times ".toList ++ "10^{".toList ++ e ++ "}".toList := by
  unfold Scale.shown Scale.text
  have : m ++ " \\times ".toList ++ "10^{".toList ++ e ++ "}".toList = m ++ (" \\times ".toList ++ ("10^{".toList ++ e ++ "}".toList)) := by simp
  simp only []
  rw [this, copy_text m _ (fun c hc => (numeric_ne hm c hc).1) (.inl hl)]
  have hw : replaceAll "1 \\times ".toList [] 0 (" \\times ".toList ++ ("10^{".toList ++ e ++ "}".toList)) = " \\times ".toList ++ replaceAll "1 \\times ".toList [] 0 ("10^{".toList ++ e ++ "}".toList) := by
    show replaceAll "1 \\times ".toList [] 0 (' ' :: '\\' :: 't' :: 'i' :: 'm' :: 'e' :: 's' :: ' ' :: ("10^{".toList ++ e ++ "}".toList)) = _
    rw [copy_char _ _ (.inl (by decide)), copy_char _ _ (.inl (by decide)), copy_char _ _ (.inl (by decide)), copy_char _ _ (.inl (by decide)),
      copy_char _ _ (.inl (by decide)), copy_char _ _ (.inl (by decide)), copy_char _ _ (.inl (by decide)), copy_char _ _ (.inl (by decide))]
    rfl
  rw [hw, tail_copied e he]

theorem shown_proper {s : Scale} (h : s.Printed) (h1 : s.exponent ≠ none → s.mantissa = ['1'] ∨ ∀ c ∈ s.mantissa.getLast?, c ≠ '1') : s.shown = s.proper := by
  obtain ⟨m, e⟩ := s
  cases e with
  | none =>
    by_cases hm : m = []
    · subst hm; rfl
    · have hn := h.mantissa (.inr hm)
      have := copy_text m [] (fun c hc => (numeric_ne hn.2 c hc).1) (.inr (by simp))
      simp only [List.append_nil, replaceAll] at this
      exact this
  | some e =>
    have hn := h.mantissa (.inl (by simp))
    have he := h.exponent e rfl
    rcases h1 (by simp) with hm | hl
    · simp only at hm
      subst hm
      have := shown_one [] e (by simp) he.2
      simpa [Scale.proper] using this
    · by_cases hm : m = ['1']
      · exact absurd (hl '1' (by simp [hm])) (by simp)
      · rw [shown_other m e hn.2 he.2 hl]
        simp [Scale.proper, hm]

theorem proper_facts {s : Scale} (h : s.Printed) (hne : s.text ≠ []) : isNumber s.proper = true ∧ NoBreak s.proper := by
  obtain ⟨m, e⟩ := s
  have num : ∀ m : List Char, Numeric m → ∀ rest, isNumber (m ++ rest) = true := by
    intro m hm rest
    obtain ⟨c, cs, rfl⟩ := List.exists_cons_of_ne_nil hm.1
    simp only [isNumber, List.cons_append, List.head?_cons]
    exact hm.2 c (by simp)
  cases e with
  | none =>
    have hm : m ≠ [] := hne
    have hn := h.mantissa (.inr hm)
    refine ⟨by simpa [Scale.proper] using num m hn [], noBreak_of fun c hc => (numeric_ne hn.2 c hc).2⟩
  | some e =>
    have hn := h.mantissa (.inl (by simp))
    have he := h.exponent e rfl
    have h10 : NoBreak ("10^{".toList ++ e ++ "}".toList) := by
      apply noBreak_of
      intro c hc
      simp only [List.mem_append] at hc
      rcases hc with (hc | hc) | hc
      · rintro rfl; exact absurd hc (by decide)
      · exact (numeric_ne he.2 c hc).2
      · rintro rfl; exact absurd hc (by decide)
    simp only [Scale.proper]
    split_ifs with hm
    · exact ⟨by simp [isNumber], by simpa using h10⟩
    · refine ⟨by simpa using num m hn _, ?_⟩
      intro hin
      -- the only backslash is followed by `t`
      have key : ∀ (u rest : List Char), (∀ c ∈ u, c ≠ '\\') → ['\\', ' '] <:+: u ++ rest → ['\\', ' '] <:+: rest := by
        intro u rest hu h
        induction u with
        | nil => exact h
        | cons c u ih =>
          rw [List.cons_append, List.infix_cons_iff] at h
          rcases h with h | h
          · have := List.prefix_cons_iff.1 h
            rcases this with h0 | ⟨t, h0, -⟩
            · cases h0
            · have : c = '\\' := by injection h0 with h0 _; exact h0.symm
              exact absurd this (hu c (by simp))
          · exact ih (fun x hx => hu x (by simp [hx])) h
      have h1 : ['\\', ' '] <:+: (m ++ [' ']) ++ ('\\' :: ("times ".toList ++ ("10^{".toList ++ e ++ "}".toList))) := by
        have : m ++ " \\times ".toList ++ "10^{".toList ++ e ++ "}".toList = (m ++ [' ']) ++ ('\\' :: ("times ".toList ++ ("10^{".toList ++ e ++ "}".toList))) := by simp
        rwa [this] at hin
      have h2 := key _ _ (fun c hc => by
        simp only [List.mem_append, List.mem_singleton] at hc
        rcases hc with hc | rfl
        · exact (numeric_ne hn.2 c hc).2
        · decide) h1
      rw [List.infix_cons_iff] at h2
      rcases h2 with h2 | h2
      · have : ['\\', ' '] <+: '\\' :: 't' :: ("imes ".toList ++ ("10^{".toList ++ e ++ "}".toList)) := h2
        simp at this
      · exact h10 (key _ _ (fun c hc => by rintro rfl; exact absurd hc (by decide)) h2)

/-- The sort does not change the order of bases found at the same place. -/
theorem orderBases_stable (found : Base → Nat) (bases : List Base) (n : Nat) :
    (orderBases found bases).filter (fun b => found b = n) = bases.filter fun b => found b = n := by
  have : IsTrans Base (fun a b => found a ≤ found b) := ⟨fun a b c => Nat.le_trans⟩
  have : Std.Total (fun a b : Base => found a ≤ found b) := ⟨fun a b => Nat.le_total _ _⟩
  have h1 : List.Sublist (bases.filter fun b => found b = n) (orderBases found bases) := by
    refine List.sublist_insertionSort (r := fun a b => found a ≤ found b) ?_ List.filter_sublist
    rw [List.pairwise_iff_forall_sublist]
    intro a b h
    have ha := h.subset (show a ∈ [a, b] by simp)
    have hb := h.subset (show b ∈ [a, b] by simp)
    simp only [List.mem_filter, decide_eq_true_eq] at ha hb
    omega
  have h2 := h1.filter (fun b => decide (found b = n))
  rw [List.filter_filter] at h2
  simp only [Bool.and_self] at h2
  exact (h2.eq_of_length (((List.perm_insertionSort _ _).filter _).length_eq.symm)).symm

/-! ## C112 -/

/-- **C112 (unit labels), part that holds.**  For every unit with bases, whatever their order in the text: the label is a TeX formula in roman type in which one reads exactly the bases of the unit, each once and with its own power, in the order in which
they are found in the text and bases found at one place in their given order, after the scale of the unit, a mantissa of one in front of a power of ten being left out.  Missing: mantissas of several digits that end in one, see `C112_scale_refuted`. -/
theorem C112_unit_partial (parse : List Char → Option (Scale × List Base)) (found : Base → Nat) (throw : Bool) (unit : List Char) (s : Scale) (bases : List Base)
    (hp : parse unit = some (s, bases)) (hu : unit ≠ []) (hb : bases ≠ []) (hplain : ∀ b ∈ bases, b.Plain) (hs : s.Printed)
    (h1 : s.exponent ≠ none → s.mantissa = ['1'] ∨ ∀ c ∈ s.mantissa.getLast?, c ≠ '1') :
    ∃ inner, unitLatex parse found throw unit = .ok ("$\\mathrm{".toList ++ inner ++ "}$".toList) ∧ (readUnit inner).1 = s.proper ∧
      ∃ l : List Base, l.Perm bases ∧ l.Pairwise (fun a b => found a ≤ found b) ∧ (∀ n, l.filter (fun b => found b = n) = bases.filter fun b => found b = n) ∧
        (readUnit inner).2 = l.map fun b => (b.name, b.power) := by
  have hsorted : (orderBases found bases).Pairwise (fun a b => found a ≤ found b) := by
    have : Std.Total (fun a b : Base => found a ≤ found b) := ⟨fun a b => Nat.le_total _ _⟩
    have : IsTrans Base (fun a b => found a ≤ found b) := ⟨fun a b c => Nat.le_trans⟩
    exact List.pairwise_insertionSort _ _
  have hstable : ∀ n, (orderBases found bases).filter (fun b => found b = n) = bases.filter fun b => found b = n := orderBases_stable found bases
  have hperm : (orderBases found bases).Perm bases := List.perm_insertionSort _ _
  have hne : orderBases found bases ≠ [] := by
    intro h0
    rw [h0] at hperm
    exact hb hperm.nil_eq.symm
  have hpl : ∀ b ∈ orderBases found bases, b.Plain := fun b hb' => hplain b (hperm.mem_iff.1 hb')
  have hread : ((orderBases found bases).map Base.text).map readBase = (orderBases found bases).map fun b => (b.name, b.power) := by
    rw [List.map_map]
    exact List.map_congr_left fun b hb' => readBase_text (hpl b hb')
  refine ⟨s.prefixText ++ joinBases (orderBases found bases), ?_, ?_⟩
  · cases unit with
    | nil => exact absurd rfl hu
    | cons c cs => simp only [unitLatex, hp, List.append_assoc]
  · by_cases ht : s.text = []
    · have hpre : s.prefixText = [] := if_pos ht
      have hprop : s.proper = [] := by
        obtain ⟨m, e⟩ := s
        cases e with
        | none => exact ht
        | some e => simp [Scale.text] at ht
      rw [hpre, List.nil_append, hprop]
      unfold readUnit
      rw [pieces_join _ hne hpl]
      obtain ⟨b, bs, hbs⟩ := List.exists_cons_of_ne_nil hne
      rw [hbs] at hread hpl ⊢
      simp only [List.map_cons] at hread ⊢
      rw [if_neg (by simp [base_not_number (hpl b (by simp))])]
      exact ⟨rfl, b :: bs, hbs ▸ hperm, hbs ▸ hsorted, hbs ▸ hstable, by simpa using hread⟩
    · have hpre : s.prefixText = s.proper ++ "\\ ".toList := by
        unfold Scale.prefixText
        rw [if_neg ht, shown_proper hs h1]
      obtain ⟨n1, n2⟩ := proper_facts hs ht
      have hpc : pieces [] (s.prefixText ++ joinBases (orderBases found bases)) = s.proper :: (orderBases found bases).map Base.text := by
        rw [hpre, List.append_assoc]
        show pieces [] (s.proper ++ '\\' :: ' ' :: joinBases (orderBases found bases)) = _
        rw [pieces_break _ _ _ n2, pieces_join _ hne hpl, List.nil_append]
      unfold readUnit
      rw [hpc]
      simp only [n1, if_true]
      exact ⟨trivial, orderBases found bases, hperm, hsorted, hstable, hread⟩

/-- **C112 (scale), refuted.**  A mantissa that ends in one loses that digit together with the sign of multiplication: the scale `1.1 × 10⁵` is shown as `1.10⁵`, `21 × 10³` as `210³`. -/
theorem C112_scale_refuted (m e : List Char) (hm : Numeric m) (he : Numeric e) :
    Scale.shown ⟨m ++ ['1'], some e⟩ = m ++ "10^{".toList ++ e ++ "}".toList ∧ Scale.shown ⟨m ++ ['1'], some e⟩ ≠ Scale.proper ⟨m ++ ['1'], some e⟩ := by
  refine ⟨shown_one m e hm.2 he.2, ?_⟩
  rw [shown_one m e hm.2 he.2]
  have hne : m ++ ['1'] ≠ ['1'] := by
    intro h
    exact hm.1 (by simpa using h)
  simp only [Scale.proper, if_neg hne]
  intro h
  have := congrArg List.length h
  simp at this

/-- **C112 (invalid units).**  No unit, no label; a text that is no unit raises `ValueError` if asked to and gives no label otherwise, as for the labels of parameters. -/
theorem C112_invalid (parse : List Char → Option (Scale × List Base)) (found : Base → Nat) (unit : List Char) :
    unitLatex parse found true [] = .ok [] ∧ (unit ≠ [] → parse unit = none → unitLatex parse found true unit = .error .valueError ∧ unitLatex parse found false unit = .ok []) := by
  refine ⟨rfl, fun hu hp => ?_⟩
  cases unit with
  | nil => exact absurd rfl hu
  | cons c cs => simp [unitLatex, hp]

/-- Splitting at the first dollar sign. -/
theorem split_dollar {a b x y : List Char} (ha : '$' ∉ a) (hb : '$' ∉ b) (h : a ++ '$' :: x = b ++ '$' :: y) : a = b ∧ x = y := by
  induction a generalizing b with
  | nil =>
    cases b with
    | nil => simpa using h
    | cons c b => simp at h; exact absurd (List.mem_cons.2 (.inl h.1)) hb
  | cons c a ih =>
    cases b with
    | nil => simp at h; exact absurd (List.mem_cons.2 (.inl h.1.symm)) ha
    | cons d b =>
      simp only [List.cons_append, List.cons.injEq] at h
      obtain ⟨h1, h2⟩ := ih (fun h' => ha (by simp [h'])) (fun h' => hb (by simp [h'])) h.2
      exact ⟨by rw [h.1, h1], h2⟩

/-- **C112 (labels of parameters).**  Two parameters carry the same label in a plot only if component, parameter and unit are labelled the same: labels do not run into each other. -/
theorem C112_param_label (comp param unit comp' param' unit' : List Char) (h1 : '$' ∉ comp) (h2 : '$' ∉ comp') (h3 : '$' ∉ param) (h4 : '$' ∉ param')
    (h : paramLabel comp param unit = paramLabel comp' param' unit') : comp = comp' ∧ param = param' ∧ unit = unit' := by
  have hunit : ∀ u u' : List Char, unitPart u = unitPart u' → u = u' := by
    intro u u' hu
    cases u with
    | nil => cases u' with
      | nil => rfl
      | cons c cs => cases hu
    | cons c cs => cases u' with
      | nil => cases hu
      | cons d ds =>
        simp only [unitPart, List.cons_append, List.cons.injEq, true_and] at hu
        obtain ⟨rfl, h⟩ := hu
        rw [List.append_cancel_right h]
  have hno : ∀ u w : List Char, unitPart u ≠ ' ' :: w := by
    intro u w hu
    cases u with
    | nil => cases hu
    | cons c cs => exact absurd (List.cons.inj hu).1 (by decide)
  cases comp with
  | nil =>
    cases comp' with
    | nil =>
      have h' : param ++ '$' :: unitPart unit = param' ++ '$' :: unitPart unit' := by simpa [paramLabel, compPart] using h
      obtain ⟨e1, e2⟩ := split_dollar h3 h4 h'
      exact ⟨rfl, e1, hunit _ _ e2⟩
    | cons c cs =>
      have h' : param ++ '$' :: unitPart unit = (c :: cs) ++ '$' :: (' ' :: '$' :: (param' ++ '$' :: unitPart unit')) := by simpa [paramLabel, compPart] using h
      exact absurd (split_dollar h3 h2 h').2 (hno _ _)
  | cons c cs =>
    cases comp' with
    | nil =>
      have h' : (c :: cs) ++ '$' :: (' ' :: '$' :: (param ++ '$' :: unitPart unit)) = param' ++ '$' :: unitPart unit' := by simpa [paramLabel, compPart] using h
      exact absurd (split_dollar h1 h4 h').2.symm (hno _ _)
    | cons d ds =>
      have h' : (c :: cs) ++ '$' :: (' ' :: '$' :: (param ++ '$' :: unitPart unit)) = (d :: ds) ++ '$' :: (' ' :: '$' :: (param' ++ '$' :: unitPart unit')) := by
        simpa [paramLabel, compPart] using h
      obtain ⟨e1, e2⟩ := split_dollar h1 h2 h'
      simp only [List.cons.injEq, true_and] at e2
      obtain ⟨e3, e4⟩ := split_dollar h3 h4 e2
      exact ⟨e1, e3, hunit _ _ e4⟩

/-- `erg cm^-2 s^-1` scaled by a thousand, found in the order of the text. -/
def exBases : List Base := [⟨"cm".toList, "-2".toList, false⟩, ⟨"erg".toList, ['1'], true⟩, ⟨"s".toList, "-1".toList, false⟩]

def exFound (b : Base) : Nat := if b.name = "erg".toList then 0 else if b.name = "cm".toList then 4 else 10

example : unitLatex (fun _ => some (⟨['1'], some ['5']⟩, exBases)) exFound true "x".toList = .ok "$\\mathrm{10^{5}\\ erg\\ cm^{-2}\\ s^{-1}}$".toList := by decide +kernel

example : (∀ b ∈ exBases, b.Plain) ∧ Scale.Printed ⟨['1'], some ['5']⟩ := by
  refine ⟨?_, ⟨fun _ => ⟨by decide, by decide⟩, fun e he => ?_⟩⟩
  · intro b hb
    simp only [exBases, List.mem_cons, List.not_mem_nil, or_false] at hb
    rcases hb with rfl | rfl | rfl <;> exact ⟨by decide, by decide, by decide, by decide⟩
  · simp only [Option.some.injEq] at he
    subst he
    exact ⟨by decide, by decide⟩

example : Scale.shown ⟨"1.1".toList, some ['5']⟩ = "1.10^{5}".toList := by decide +kernel

end Elisa.Util.Unit
