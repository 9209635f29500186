import Verif.Util.SuffixCfg
import Verif.Util.NamespaceProps

/-!
# C125: component names under user-defined suffixes
-/

namespace Elisa.Util.Suffix

open Elisa Elisa.Util.Names

/-! ## Specification -/

/-- The pieces are literal text that reads `s`. -/
inductive Reads : List Piece → String → Prop
  | nil : Reads [] ""
  | cons (t : String) {ps : List Piece} {s : String} : Reads ps s → Reads (.text t :: ps) (t ++ s)

/-- The template is text with exactly one place for the suffix (cut to `p` characters if a precision is given). -/
def OnePlace (t : List Piece) (pre : String) (p : Option Nat) (post : String) : Prop :=
  ∃ a b, t = a ++ .str p :: b ∧ Reads a pre ∧ Reads b post

/-- The four templates of a configuration are usable. -/
def Cfg.Sound (c : Cfg) : Prop :=
  ∀ t ∈ [c.sub, c.sup, c.latexSub, c.latexSup], ∃ pre p post, OnePlace t pre p post

/-- The data sets of a component, in the order of the fit. -/
def usedIn (dataNames : List String) (uses : String → Bool) : List String := dataNames.filter uses

/-! ## Templates -/

theorem format_texts {a : List Piece} {pre : String} (h : Reads a pre) (used : Bool) (b : List Piece) (s : String) :
    formatAux used (a ++ b) s = (formatAux used b s).map (pre ++ ·) := by
  induction h with
  | nil =>
    cases hb : formatAux used b s <;> simp [hb, Except.map]
  | cons t hr ih =>
    simp only [List.cons_append, formatAux, ih]
    cases formatAux used b s <;> simp [Except.map, String.append_assoc]

theorem format_onePlace {t : List Piece} {pre post : String} {p : Option Nat} (h : OnePlace t pre p post) (s : String) :
    format t s = .ok (pre ++ (convert p s ++ post)) := by
  obtain ⟨a, b, rfl, ha, hb⟩ := h
  have : formatAux true b s = .ok post := by
    have := format_texts hb true [] s
    simpa [formatAux, Except.map] using this
  unfold format
  rw [format_texts ha]
  simp [formatAux, this, Except.map]

theorem reads_of_ok : ∀ (b : List Piece) {s r : String}, formatAux true b s = .ok r → Reads b r
  | [], s, r, h => by
    simp only [formatAux, if_true, Except.ok.injEq] at h
    subst h; exact .nil
  | .text t :: ps, s, r, h => by
    simp only [formatAux] at h
    cases hp : formatAux true ps s with
    | error e => simp [hp, Except.map] at h
    | ok r' =>
      simp only [hp, Except.map, Except.ok.injEq] at h
      subst h; exact .cons t (reads_of_ok ps hp)
  | .str p :: ps, s, r, h => by simp [formatAux] at h
  | .number :: ps, s, r, h => by simp [formatAux] at h
  | .mapping :: ps, s, r, h => by simp [formatAux] at h
  | .bad :: ps, s, r, h => by simp [formatAux] at h

theorem onePlace_of_ok : ∀ (t : List Piece) {s r : String}, format t s = .ok r → ∃ pre p post, OnePlace t pre p post
  | [], s, r, h => by simp [format, formatAux] at h
  | .text t :: ps, s, r, h => by
    simp only [format, formatAux] at h
    cases hp : formatAux false ps s with
    | error e => simp [hp, Except.map] at h
    | ok r' =>
      obtain ⟨pre, p, post, a, b, rfl, ha, hb⟩ := onePlace_of_ok ps (s := s) (r := r') hp
      exact ⟨t ++ pre, p, post, .text t :: a, b, rfl, .cons t ha, hb⟩
  | .str p :: ps, s, r, h => by
    simp only [format, formatAux, Bool.false_eq_true, if_false] at h
    cases hp : formatAux true ps s with
    | error e => simp [hp, Except.map] at h
    | ok r' => exact ⟨"", p, r', [], ps, rfl, .nil, reads_of_ok ps hp⟩
  | .number :: ps, s, r, h => by simp [format, formatAux] at h
  | .mapping :: ps, s, r, h => by simp [format, formatAux] at h
  | .bad :: ps, s, r, h => by simp [format, formatAux] at h

theorem works_iff (t : List Piece) : works t = true ↔ ∃ pre p post, OnePlace t pre p post := by
  unfold works
  constructor
  · intro h
    cases hf : format t "test" with
    | error e => simp [hf] at h
    | ok r => exact onePlace_of_ok t hf
  · rintro ⟨pre, p, post, h⟩
    rw [format_onePlace h]

/-- **C125 (accepted configurations).**  `set_suffix_config` accepts exactly the configurations whose four
templates have exactly one place for the suffix; otherwise it raises `ValueError` and the configuration in
force stays.  With an accepted configuration formatting never fails later, whatever the suffix. -/
theorem C125_accepted (old new : Cfg) :
    (new.Sound → setConfig old new = (.ok (), new)) ∧
    (¬ new.Sound → setConfig old new = (.error .valueError, old)) ∧
    (new.Sound → ∀ sub s suf, ∃ r, addSuffix new sub s suf = .ok r) := by
  have hs : (works new.sub && works new.sup && works new.latexSub && works new.latexSup) = true ↔ new.Sound := by
    simp [Cfg.Sound, works_iff, and_assoc]
  refine ⟨fun h => if_pos (hs.2 h), fun h => if_neg (fun h' => h (hs.1 h')), fun h sub s suf => ?_⟩
  have ht : ∃ pre p post, OnePlace (if sub then new.sub else new.sup) pre p post := by
    cases sub
    · exact h _ (by simp)
    · exact h _ (by simp)
  obtain ⟨pre, p, post, ht⟩ := ht
  unfold addSuffix
  split_ifs with h1 h2 h3
  · exact ⟨_, rfl⟩
  · exact ⟨_, rfl⟩
  · exact ⟨_, rfl⟩
  · rename_i h4
    simp only [h4, if_true] at ht
    exact ⟨_, by rw [format_onePlace ht]; rfl⟩
  · rename_i h4
    simp only [h4, Bool.false_eq_true, if_false] at ht
    exact ⟨_, by rw [format_onePlace ht]; rfl⟩

/-- The configuration after any sequence of calls of `set_suffix_config`. -/
def after (calls : List Cfg) : Cfg := calls.foldl (fun c new => (setConfig c new).2) Cfg.init

theorem init_sound : Cfg.init.Sound := by
  intro t ht
  rw [← works_iff]
  simp only [List.mem_cons, List.not_mem_nil, or_false] at ht
  rcases ht with rfl | rfl | rfl | rfl <;> decide

/-- **C125 (every history).**  After any sequence of calls, accepted or refused, the configuration in force
is usable: it is the initial one or the last one that was accepted. -/
theorem C125_history (calls : List Cfg) :
    (after calls).Sound ∧ (after calls = Cfg.init ∨ after calls ∈ calls) := by
  induction calls using List.reverseRecOn with
  | nil => exact ⟨init_sound, .inl rfl⟩
  | append_singleton l c ih =>
    have e : after (l ++ [c]) = (setConfig (after l) c).2 := by simp [after]
    by_cases hc : c.Sound
    · rw [e, (C125_accepted (after l) c).1 hc]
      exact ⟨hc, .inr (by simp)⟩
    · rw [e, (C125_accepted (after l) c).2.1 hc]
      exact ⟨ih.1, ih.2.imp id fun h => by simp [h]⟩

example : after [⟨true, [.text "-", .str none], [.str none], [.str none], [.str none]⟩,
    ⟨false, [.text "no place"], [.str none], [.str none], [.str none]⟩] =
    ⟨true, [.text "-", .str none], [.str none], [.str none], [.str none]⟩ := by decide

/-! ## Names -/

/-- **C125 (data sets in a name).**  A component used for all data sets gets no data suffix; any other one gets the
names of exactly the data sets it is used for, in the order of the fit, joined by `+`. -/
theorem C125_data_suffix (dataNames : List String) (uses : String → Bool) :
    dataSuffix dataNames uses =
      if ∀ n ∈ dataNames, uses n = true then "" else "+".intercalate (usedIn dataNames uses) := by
  unfold dataSuffix usedIn
  have e : (dataNames.filter fun n => !uses n).isEmpty = true ↔ ∀ n ∈ dataNames, uses n = true := by
    rw [List.isEmpty_iff, List.filter_eq_nil_iff]
    simp
  have f : (dataNames.filter fun n => !(dataNames.filter fun n => !uses n).contains n) = dataNames.filter uses := by
    apply List.filter_congr
    intro n hn
    simp [hn]
  simp only [f]
  by_cases h : ∀ n ∈ dataNames, uses n = true
  · rw [if_pos h, if_pos (e.2 h)]
  · rw [if_neg h, if_neg (fun h' => h (e.1 h'))]

/-- number suffix of an occurrence -/
def numText (n : Nat) : String := if n > 1 then n.repr else ""

theorem names_get {cfg : Cfg} {S : Nat → String} {T : String → String}
    (hS : ∀ s n, addSuffix cfg true s (numText n) = .ok (s ++ S n))
    (hT : ∀ s d, addSuffix cfg false s d = .ok (s ++ T d))
    (dataNames : List String) (comps : List (String × (String → Bool))) :
    ∃ L z, names cfg dataNames comps = .ok L ∧ L.length = comps.length ∧
      z = comps.map (fun c => c.1 ++ dataSuffix dataNames c.2) ∧
      ∀ (i : Nat) (c : String × (String → Bool)), comps[i]? = some c →
        L[i]? = some (c.1 ++ S (occurrence z i) ++ T (dataSuffix dataNames c.2)) := by
  set z := comps.map (fun c => c.1 ++ dataSuffix dataNames c.2) with hz
  have hzip : List.zipWith (· ++ ·) (comps.map Prod.fst) (comps.map fun c => dataSuffix dataNames c.2) = z := by
    rw [hz, List.zipWith_map_left, List.zipWith_map_right]
    simp [List.zipWith_self]
  set l := (comps.map Prod.fst).zip ((suffixNums z).zip (comps.map fun c => dataSuffix dataNames c.2)) with hl
  have hnames : names cfg dataNames comps = .ok (l.map fun x => x.1 ++ S x.2.1 ++ T x.2.2) := by
    unfold names
    simp only [hzip]
    have e : ((comps.map Prod.fst).zip ((suffixNum z).zip (comps.map fun c => dataSuffix dataNames c.2))) =
        l.map fun x => (x.1, numText x.2.1, x.2.2) := by
      rw [hl, suffixNum]
      apply List.ext_getElem?
      intro i
      simp only [List.getElem?_zip_eq_some, List.getElem?_map, List.zip, List.getElem?_zipWith]
      cases (comps[i]?) <;> cases ((suffixNums z)[i]?) <;> simp [numText]
    rw [e, List.mapM_map]
    have : ∀ x : String × Nat × String, ((fun x : String × String × String =>
        (addSuffix cfg true x.1 x.2.1).bind fun s => addSuffix cfg false s x.2.2) ∘
        fun x : String × Nat × String => (x.1, numText x.2.1, x.2.2)) x = pure (x.1 ++ S x.2.1 ++ T x.2.2) := by
      intro x
      simp only [Function.comp, hS, Except.bind, hT]
      rfl
    rw [show ((fun x : String × String × String =>
        (addSuffix cfg true x.1 x.2.1).bind fun s => addSuffix cfg false s x.2.2) ∘
        fun x : String × Nat × String => (x.1, numText x.2.1, x.2.2)) = fun x => pure (x.1 ++ S x.2.1 ++ T x.2.2) from
        funext this, List.mapM_pure]
    rfl
  refine ⟨_, z, hnames, ?_, rfl, ?_⟩
  · simp [hl, suffixNums_length, hz]
  · intro i c hc
    have hi : i < comps.length := by
      by_contra h
      rw [List.getElem?_eq_none (by omega)] at hc; cases hc
    have hn : (suffixNums z)[i]? = some (occurrence z i) := suffixNums_get z i (by simp [hz]; omega)
    simp [hl, List.zip, List.getElem?_zipWith, hc, hn]

/-- Where two texts without marks are followed by nothing or by something that begins with a mark, the
whole determines both parts. -/
theorem cut {P : Char → Prop} : ∀ {a a' x x' : List Char}, (∀ c ∈ a, ¬ P c) → (∀ c ∈ a', ¬ P c) →
    (∀ c ∈ x.head?, P c) → (∀ c ∈ x'.head?, P c) → a ++ x = a' ++ x' → a = a' ∧ x = x'
  | [], [], _, _, _, _, _, _, h => ⟨rfl, h⟩
  | [], c :: a', x, x', _, h2, h3, _, h => by
    have h' : x = c :: (a' ++ x') := h
    exact absurd (h3 c (by simp [h'])) (h2 c (by simp))
  | c :: a, [], x, x', h1, _, _, h4, h => by
    have h' : c :: (a ++ x) = x' := h
    exact absurd (h4 c (by simp [← h'])) (h1 c (by simp))
  | c :: a, c' :: a', x, x', h1, h2, h3, h4, h => by
    simp only [List.cons_append, List.cons.injEq] at h
    obtain ⟨e, ex⟩ := cut (fun d hd => h1 d (by simp [hd])) (fun d hd => h2 d (by simp [hd])) h3 h4 h.2
    exact ⟨by rw [h.1, e], ex⟩

/-- Distinct names when the parts of a name can be told apart. -/
theorem distinct {cfg : Cfg} {S : Nat → String} {T : String → String} {P Q : Char → Prop}
    (hS : ∀ s n, addSuffix cfg true s (numText n) = .ok (s ++ S n))
    (hT : ∀ s d, addSuffix cfg false s d = .ok (s ++ T d))
    (dataNames : List String) (comps : List (String × (String → Bool)))
    (hPc : ∀ c ∈ comps, ∀ x ∈ c.1.toList, ¬ P x ∧ ¬ Q x)
    (hSP : ∀ n, ∀ c ∈ (S n).toList.head?, P c) (hSQ : ∀ n, ∀ c ∈ (S n).toList, ¬ Q c)
    (hTQ : ∀ c ∈ comps, ∀ x ∈ (T (dataSuffix dataNames c.2)).toList.head?, Q x)
    (hSi : ∀ m n, 1 ≤ m → 1 ≤ n → S m = S n → m = n)
    (hTi : ∀ c ∈ comps, ∀ c' ∈ comps, T (dataSuffix dataNames c.2) = T (dataSuffix dataNames c'.2) →
      dataSuffix dataNames c.2 = dataSuffix dataNames c'.2) :
    ∃ L, names cfg dataNames comps = .ok L ∧ L.length = comps.length ∧ L.Nodup := by
  obtain ⟨L, z, h1, h2, hz, h3⟩ := names_get hS hT dataNames comps
  refine ⟨L, h1, h2, ?_⟩
  rw [List.nodup_iff_injective_getElem]
  rintro ⟨i, hi⟩ ⟨j, hj⟩ h
  simp only at h
  have hi' : i < comps.length := by omega
  have hj' : j < comps.length := by omega
  have ei := h3 i comps[i] (List.getElem?_eq_getElem hi')
  have ej := h3 j comps[j] (List.getElem?_eq_getElem hj')
  rw [List.getElem?_eq_getElem hi, Option.some.injEq] at ei
  rw [List.getElem?_eq_getElem hj, Option.some.injEq] at ej
  rw [ei, ej] at h
  have mi := List.getElem_mem hi'
  have mj := List.getElem_mem hj'
  have hl := congrArg String.toList h
  simp only [String.toList_append] at hl
  have noQ : ∀ (c : String × (String → Bool)) (n : Nat), c ∈ comps → ∀ x ∈ c.1.toList ++ (S n).toList, ¬ Q x := by
    intro c n hc x hx
    rcases List.mem_append.1 hx with hx | hx
    · exact (hPc c hc x hx).2
    · exact hSQ n x hx
  obtain ⟨e1, e2⟩ := cut (P := Q) (noQ _ _ mi) (noQ _ _ mj) (hTQ _ mi) (hTQ _ mj) hl
  obtain ⟨e3, e4⟩ := cut (P := P) (fun x hx => (hPc _ mi x hx).1) (fun x hx => (hPc _ mj x hx).1) (hSP _) (hSP _) e1
  have hzl : z.length = comps.length := by simp [hz]
  have ho := hSi _ _ (occurrence_pos z i (by omega)) (occurrence_pos z j (by omega)) (String.toList_injective e4)
  have hzz : z[i]'(by omega) = z[j]'(by omega) := by
    simp only [hz, List.getElem_map]
    rw [String.toList_injective e3, hTi _ mi _ mj (String.toList_injective e2)]
  rcases Nat.lt_trichotomy i j with hlt | rfl | hgt
  · have := occurrence_lt z i j hlt (by omega) hzz; omega
  · rfl
  · have := occurrence_lt z j i hgt (by omega) hzz.symm; omega

theorem isDigit_of_mem_repr {n : Nat} {c : Char} (h : c ∈ n.repr.toList) : c.isDigit = true := by
  rw [Nat.toList_repr] at h
  exact Nat.isDigit_of_mem_toDigits (by omega) (by omega) h

/-- **C125 (distinct names, templates).**  With plain suffixes, templates `pre%spost` and `pre'%spost'` that begin
with marks `m` and `m'` not occurring in the class names (`m'` also not in the number suffix) give every component
of a fit its own name, whatever the data sets are called.

Not proved, because false: distinct names for every accepted configuration — see `C125_template_refuted` (a template
that cuts the suffix) and `C125_unicode_refuted`. -/
theorem C125_distinct_partial (cfg : Cfg) (hu : cfg.unicode = false) (m m' : Char)
    (pre post pre' post' : String)
    (hsub : OnePlace cfg.sub (String.ofList (m :: pre.toList)) none post)
    (hsup : OnePlace cfg.sup (String.ofList (m' :: pre'.toList)) none post')
    (hm' : m' ≠ m ∧ m' ∉ pre.toList ∧ m' ∉ post.toList ∧ m'.isDigit = false)
    (dataNames : List String) (comps : List (String × (String → Bool)))
    (hc : ∀ c ∈ comps, m ∉ c.1.toList ∧ m' ∉ c.1.toList) :
    ∃ L, names cfg dataNames comps = .ok L ∧ L.length = comps.length ∧ L.Nodup := by
  let S : Nat → String := fun n => if n > 1 then String.ofList (m :: pre.toList) ++ (n.repr ++ post) else ""
  let T : String → String := fun d => if d = "" then "" else String.ofList (m' :: pre'.toList) ++ (d ++ post')
  refine distinct (S := S) (T := T) (P := fun c => c = m) (Q := fun c => c = m') ?_ ?_ dataNames comps ?_ ?_ ?_ ?_ ?_ ?_
  · intro s n
    unfold addSuffix
    simp only [hu, Bool.false_eq_true, if_false, if_true, numText, S]
    by_cases h : n > 1
    · have : n.repr ≠ "" := Nat.repr_ne_empty
      simp only [h, if_true, this, if_false]
      rw [format_onePlace hsub]; rfl
    · simp [h]
  · intro s d
    unfold addSuffix
    simp only [hu, Bool.false_eq_true, if_false, T]
    by_cases h : d = ""
    · simp [h]
    · simp only [h, if_false]
      rw [format_onePlace hsup]; rfl
  · intro c hcm x hx
    exact ⟨fun e => (hc c hcm).1 (e ▸ hx), fun e => (hc c hcm).2 (e ▸ hx)⟩
  · intro n c h
    by_cases hn : n > 1
    · simpa [S, hn, eq_comm] using h
    · simp [S, hn] at h
  · rintro n c h rfl
    by_cases hn : n > 1
    · simp only [S, hn, if_true, String.toList_append, String.toList_ofList, List.mem_append, List.mem_cons] at h
      rcases h with (h | h) | h | h
      · exact hm'.1 h
      · exact hm'.2.1 h
      · have := isDigit_of_mem_repr h
        rw [hm'.2.2.2] at this; cases this
      · exact hm'.2.2.1 h
    · simp [S, hn] at h
  · intro c _ x h
    by_cases hn : dataSuffix dataNames c.2 = ""
    · simp [T, hn] at h
    · simpa [T, hn, eq_comm] using h
  · intro a b ha hb h
    have hne : ∀ k, String.ofList (m :: pre.toList) ++ (k ++ post) ≠ "" := by
      intro k e
      have := congrArg String.toList e
      simp at this
    by_cases h1 : a > 1 <;> by_cases h2 : b > 1
    · simp only [S, h1, h2, if_true] at h
      have := congrArg String.toList h
      simp only [String.toList_append] at this
      have := List.append_cancel_right (List.append_cancel_left this)
      exact repr_inj (String.toList_injective this)
    · simp only [S, h1, h2, if_true, if_false] at h
      exact absurd h (hne _)
    · simp only [S, h1, h2, if_true, if_false] at h
      exact absurd h.symm (hne _)
    · omega
  · intro c _ c' _ h
    have hne : ∀ k, String.ofList (m' :: pre'.toList) ++ (k ++ post') ≠ "" := by
      intro k e
      have := congrArg String.toList e
      simp at this
    by_cases h1 : dataSuffix dataNames c.2 = "" <;> by_cases h2 : dataSuffix dataNames c'.2 = ""
    · rw [h1, h2]
    · simp only [T, h1, h2, if_true, if_false] at h
      exact absurd h.symm (hne _)
    · simp only [T, h1, h2, if_true, if_false] at h
      exact absurd h (hne _)
    · simp only [T, h1, h2, if_false] at h
      have := congrArg String.toList h
      simp only [String.toList_append] at this
      exact String.toList_injective (List.append_cancel_right (List.append_cancel_left this))

/-- non-vacuity: the initial configuration, and one with other templates. -/
example : OnePlace Cfg.init.sub (String.ofList ('_' :: "".toList)) none "" ∧
    OnePlace Cfg.init.sup (String.ofList ('[' :: "".toList)) none "]" := by
  refine ⟨⟨[.text "_"], [], rfl, ?_, .nil⟩, ⟨[.text "["], [.text "]"], rfl, ?_, .cons "]" .nil⟩⟩
  · exact .cons "_" .nil
  · exact .cons "[" .nil

example : names Cfg.init ["NaI", "BGO"] [("PowerLaw", fun _ => true), ("PowerLaw", fun n => n == "BGO"), ("PowerLaw", fun _ => true)] =
    .ok ["PowerLaw", "PowerLaw[BGO]", "PowerLaw_2"] := by decide +kernel

/-- **C125 refuted for templates that cut.**  `set_suffix_config` accepts the template `[%.3s]`; the components for
the data sets `NaI1` and `NaI2` then have the same name. -/
theorem C125_template_refuted :
    ∃ cfg : Cfg, cfg.Sound ∧ cfg.unicode = false ∧
      names cfg ["NaI1", "NaI2"] [("PowerLaw", fun n => n == "NaI1"), ("PowerLaw", fun n => n == "NaI2")] =
        .ok ["PowerLaw[NaI]", "PowerLaw[NaI]"] := by
  refine ⟨{ Cfg.init with sup := [.text "[", .str (some 3), .text "]"] }, ?_, rfl, by decide +kernel⟩
  intro t ht
  rw [← works_iff]
  simp only [List.mem_cons, List.not_mem_nil, or_false, Cfg.init] at ht
  rcases ht with rfl | rfl | rfl | rfl <;> decide

/-! ## Unicode suffixes -/

/-- The subscript digits. -/
def subDigits : List Char := "₀₁₂₃₄₅₆₇₈₉".toList

/-- A text can be written in superscript without loss next to the given class names: its characters have
superscript forms, different ones for different characters, which occur neither in the class names nor among the
subscript digits. -/
def Superscriptable (texts classNames : List String) : Prop :=
  (∀ s ∈ texts, ∀ x ∈ s.toList, ∀ t ∈ texts, ∀ y ∈ t.toList, uniChar false x = uniChar false y → x = y) ∧
  ∀ s ∈ texts, ∀ x ∈ s.toList, (∀ c ∈ classNames, uniChar false x ∉ c.toList) ∧
    uniChar false x ∉ subDigits

theorem uniChar_digit {c d : Char} (hc : c.isDigit = true) (hd : d.isDigit = true) (h : uniChar true c = uniChar true d) :
    c = d := by
  have key : ∀ c : Char, c.isDigit = true → c ∈ ['0', '1', '2', '3', '4', '5', '6', '7', '8', '9'] := by
    intro c hc
    simp only [Char.isDigit, Bool.and_eq_true, decide_eq_true_eq] at hc
    have h1 : 48 ≤ c.toNat := hc.1
    have h2 : c.toNat ≤ 57 := hc.2
    have : c = Char.ofNat c.toNat := (Char.ofNat_toNat c).symm
    rw [this]
    generalize c.toNat = n at h1 h2
    interval_cases n <;> decide
  have all : ∀ c ∈ ['0', '1', '2', '3', '4', '5', '6', '7', '8', '9'], ∀ d ∈ ['0', '1', '2', '3', '4', '5', '6', '7', '8', '9'],
      uniChar true c = uniChar true d → c = d := by decide +kernel
  exact all c (key c hc) d (key d hd) h

theorem map_inj_on {f : Char → Char} : ∀ {a b : List Char}, (∀ x ∈ a, ∀ y ∈ b, f x = f y → x = y) →
    a.map f = b.map f → a = b
  | [], [], _, _ => rfl
  | [], _ :: _, _, h => by simp at h
  | _ :: _, [], _, h => by simp at h
  | x :: a, y :: b, hi, h => by
    simp only [List.map_cons, List.cons.injEq] at h
    rw [hi x (by simp) y (by simp) h.1,
      map_inj_on (fun u hu v hv => hi u (by simp [hu]) v (by simp [hv])) h.2]

/-- **C125 (distinct names, unicode).**  With unicode suffixes every component of a fit has its own name if the
data suffixes can be written in superscript without loss and the class names contain no subscript digits.

Not proved, because false: distinct names for all data set names — see `C125_unicode_refuted`. -/
theorem C125_unicode_partial (cfg : Cfg) (hu : cfg.unicode = true)
    (dataNames : List String) (comps : List (String × (String → Bool)))
    (hs : Superscriptable (comps.map fun c => dataSuffix dataNames c.2) (comps.map Prod.fst))
    (hd : ∀ c ∈ comps, ∀ x ∈ subDigits, x ∉ c.1.toList) :
    ∃ L, names cfg dataNames comps = .ok L ∧ L.length = comps.length ∧ L.Nodup := by
  have hadd : ∀ sub s d, addSuffix cfg sub s d = .ok (s ++ toUnicode sub d) := by
    intro sub s d
    unfold addSuffix
    simp only [hu, if_true]
    by_cases h : toUnicode sub d = ""
    · simp [h]
    · simp [h]
  have hdig : ∀ c : Char, c.isDigit = true → uniChar true c ∈ subDigits := by
    intro c hc
    simp only [Char.isDigit, Bool.and_eq_true, decide_eq_true_eq] at hc
    have h1 : 48 ≤ c.toNat := hc.1
    have h2 : c.toNat ≤ 57 := hc.2
    have : c = Char.ofNat c.toNat := (Char.ofNat_toNat c).symm
    rw [this]
    generalize c.toNat = n at h1 h2
    interval_cases n <;> decide +kernel
  have hnum : ∀ n, ∀ x ∈ (toUnicode true (numText n)).toList, x ∈ subDigits := by
    intro n x hx
    unfold numText at hx
    split at hx
    · simp only [toUnicode, String.toList_ofList, List.mem_map] at hx
      obtain ⟨d, hd, rfl⟩ := hx
      exact hdig d (isDigit_of_mem_repr hd)
    · simp [toUnicode] at hx
  have hmem : ∀ c ∈ comps, dataSuffix dataNames c.2 ∈ comps.map fun c => dataSuffix dataNames c.2 :=
    fun c hc => List.mem_map.2 ⟨c, hc, rfl⟩
  refine distinct (S := fun n => toUnicode true (numText n)) (T := toUnicode false)
    (P := fun x => x ∈ subDigits)
    (Q := fun x => ∃ c ∈ comps, x ∈ (toUnicode false (dataSuffix dataNames c.2)).toList)
    (fun s n => hadd true s _) (fun s d => hadd false s d) dataNames comps ?_ ?_ ?_ ?_ ?_ ?_
  · intro c hc x hx
    refine ⟨fun h => hd c hc x h hx, ?_⟩
    rintro ⟨c', hc', h⟩
    simp only [toUnicode, String.toList_ofList, List.mem_map] at h
    obtain ⟨y, hy, rfl⟩ := h
    exact (hs.2 _ (hmem c' hc') y hy).1 c.1 (List.mem_map.2 ⟨c, hc, rfl⟩) hx
  · intro n c hc
    exact hnum n c (List.mem_of_mem_head? hc)
  · rintro n x hx ⟨c', hc', h⟩
    simp only [toUnicode, String.toList_ofList, List.mem_map] at h
    obtain ⟨y, hy, rfl⟩ := h
    exact (hs.2 _ (hmem c' hc') y hy).2 (hnum n _ hx)
  · intro c hc x hx
    exact ⟨c, hc, List.mem_of_mem_head? hx⟩
  · intro a b ha hb h
    have h' := congrArg String.toList h
    simp only [toUnicode, String.toList_ofList] at h'
    have : (numText a).toList = (numText b).toList := by
      refine map_inj_on ?_ h'
      intro x hx y hy
      have dig : ∀ n, ∀ x ∈ (numText n).toList, x.isDigit = true := by
        intro n x hx
        unfold numText at hx
        split at hx
        · exact isDigit_of_mem_repr hx
        · simp at hx
      exact uniChar_digit (dig a x hx) (dig b y hy)
    have := String.toList_injective this
    unfold numText at this
    by_cases h1 : a > 1 <;> by_cases h2 : b > 1
    · simp only [h1, h2, if_true] at this; exact repr_inj this
    · simp only [h1, h2, if_true, if_false] at this; exact absurd this Nat.repr_ne_empty
    · simp only [h1, h2, if_true, if_false] at this; exact absurd this.symm Nat.repr_ne_empty
    · omega
  · intro c hc c' hc' h
    have h' := congrArg String.toList h
    simp only [toUnicode, String.toList_ofList] at h'
    exact String.toList_injective (map_inj_on (fun x hx y hy => hs.1 _ (hmem c hc) x hx _ (hmem c' hc') y hy) h')

/-- non-vacuity -/
example : Superscriptable [dataSuffix ["NaI", "BGO"] (fun n => n == "BGO"), dataSuffix ["NaI", "BGO"] fun n => n == "NaI"]
    ["PowerLaw", "Band"] := by
  unfold Superscriptable
  decide +kernel

example : names { Cfg.init with unicode := true } ["NaI", "BGO"] [("Band", fun _ => true), ("Band", fun n => n == "BGO"),
    ("Band", fun _ => true)] = .ok ["Band", "Bandᴮᴳᴼ", "Band₂"] := by decide +kernel

/-- **C125 refuted for unicode suffixes.**  Several letters share a superscript form (`C` and `c`, `F` and `f`,
`Q` and `q`, `S` and `s`, `Y` and `y`, `Z` and `z`): the components for the data sets `detC` and `detc` have the
same name although the configuration is accepted. -/
theorem C125_unicode_refuted :
    (∀ p ∈ [('C', 'c'), ('F', 'f'), ('Q', 'q'), ('S', 's'), ('Y', 'y'), ('Z', 'z')],
      p.1 ≠ p.2 ∧ uniChar false p.1 = uniChar false p.2) ∧
    ({ Cfg.init with unicode := true } : Cfg).Sound ∧
    ∃ n, names { Cfg.init with unicode := true } ["detC", "detc"]
      [("PowerLaw", fun n => n == "detC"), ("PowerLaw", fun n => n == "detc")] = .ok [n, n] := by
  refine ⟨by decide +kernel, init_sound, "PowerLawᵈᵉᵗᶜ", by decide +kernel⟩

end Elisa.Util.Suffix
