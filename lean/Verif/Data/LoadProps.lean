import Verif.Data.Load
import Verif.Data.OgipSpec

/-!
# C96: a `Data` object is assembled from the files asked for
-/

namespace Elisa.Data

open Elisa Elisa.Grouping

/-! ## Specification -/

/-- What a path means: the file itself, or — `file{n}` — number `n` of a file (a row of a spectrum file, a matrix of a response file). -/
inductive Points (int : Path → Option Int) : Path → Path → Option Int → Prop
  | plain (p : Path) (h : '{' ∉ p) : Points int p p none
  | numbered (f g : Path) (n : Int) (hf : f ≠ []) (hg : g ≠ []) (hb : '{' ∉ g) (hn : int g = some n) :
      Points int (f ++ '{' :: g ++ ['}']) f (some n)

/-- The spectrum a number selects: the only one, or the `n`-th row, counted from one. -/
def Selected (t : SpecFile) (id : Option Int) (r : PhaRow) : Prop :=
  (id = none ∧ t.content = .inl r) ∨ ∃ (k : Nat) (rows : List PhaRow), id = some ((k : Int) + 1) ∧ t.content = .inr rows ∧ rows[k]? = some r

/-- Ways of saying in a header that there is no file. -/
def NoFile (h : Option Path) : Prop := h = none ∨ h = some [] ∨ h = some "none".toList ∨ h = some "None".toList ∨ h = some "NONE".toList

/-- The file to use: the argument if one is given, else the one named in the header. -/
def Named (arg header : Option Path) (f : Path) : Prop :=
  f ≠ [] ∧ (arg = some f ∨ ((arg = none ∨ arg = some []) ∧ header = some f ∧ ¬ NoFile header))

/-- No file is named, neither by the argument nor in the header. -/
def Unnamed (arg header : Option Path) : Prop := (arg = none ∨ arg = some []) ∧ NoFile header

/-! ## Paths -/

theorem find_reverse_range {p : Nat → Bool} {n k : Nat} (hk : k < n) (hp : p k = true) (h : ∀ j, k < j → j < n → p j = false) :
    (List.range n).reverse.find? p = some k := by
  induction n with
  | zero => omega
  | succ n ih =>
    rw [List.range_succ, List.reverse_append, List.reverse_singleton, List.singleton_append, List.find?_cons]
    by_cases hkn : k = n
    · subst hkn; rw [hp]
    · rw [h n (by omega) (by omega)]
      exact ih (by omega) fun j h1 h2 => h j h1 (by omega)

theorem findSome_reverse_range {A : Type} {p : Nat → Option A} {n k : Nat} {a : A} (hk : k < n) (hp : p k = some a)
    (h : ∀ j, k < j → j < n → p j = none) : (List.range n).reverse.findSome? p = some a := by
  induction n with
  | zero => omega
  | succ n ih =>
    rw [List.range_succ, List.reverse_append, List.reverse_singleton, List.singleton_append, List.findSome?_cons]
    by_cases hkn : k = n
    · subst hkn; rw [hp]
    · rw [h n (by omega) (by omega)]
      exact ih (by omega) fun j h1 h2 => h j h1 (by omega)

theorem closing_eq {g rest : Path} (hg : g ≠ []) (hr : '}' ∉ rest) : closing (g ++ '}' :: rest) = some g := by
  have hl : 1 ≤ g.length := List.length_pos_iff.2 hg
  have h : (List.range (g ++ '}' :: rest).length).reverse.find?
      (fun j => decide (1 ≤ j ∧ (g ++ '}' :: rest)[j]? = some '}')) = some g.length := by
    apply find_reverse_range
    · simp
    · simp [hl]
    · intro j h1 h2
      rw [decide_eq_false_iff_not]
      rintro ⟨-, h3⟩
      rw [List.getElem?_append_right (by omega)] at h3
      obtain ⟨i, rfl⟩ : ∃ i, j = g.length + (i + 1) := ⟨j - g.length - 1, by omega⟩
      rw [Nat.add_sub_cancel_left, List.getElem?_cons_succ] at h3
      exact hr (List.mem_of_getElem? h3)
  rw [closing, h]
  simp

theorem specifier_eq {f g rest : Path} (hf : f ≠ []) (hg : g ≠ []) (hb : '{' ∉ g) (hr : '{' ∉ rest) (hr' : '}' ∉ rest) :
    specifier (f ++ '{' :: g ++ '}' :: rest) = some (f, g) := by
  have hl : 1 ≤ f.length := List.length_pos_iff.2 hf
  apply findSome_reverse_range (k := f.length)
  · simp
  · rw [if_pos]
    · have : (f ++ '{' :: g ++ '}' :: rest).drop (f.length + 1) = g ++ '}' :: rest := by
        rw [show f ++ '{' :: g ++ '}' :: rest = (f ++ ['{']) ++ (g ++ '}' :: rest) by simp]
        rw [show f.length + 1 = (f ++ ['{']).length by simp, List.drop_left]
      rw [this, closing_eq hg hr']
      simp
    · simp [hl]
  · intro j h1 h2
    rw [if_neg]
    rintro ⟨-, h3⟩
    rw [List.append_assoc, List.getElem?_append_right (by omega)] at h3
    obtain ⟨i, rfl⟩ : ∃ i, j = f.length + (i + 1) := ⟨j - f.length - 1, by omega⟩
    rw [Nat.add_sub_cancel_left, List.cons_append, List.getElem?_cons_succ] at h3
    have := List.mem_of_getElem? h3
    rw [List.mem_append, List.mem_cons] at this
    rcases this with h | h | h
    · exact hb h
    · exact absurd h (by decide)
    · exact hr h

theorem specifier_none {p : Path} (h : '{' ∉ p) : specifier p = none := by
  rw [specifier, List.findSome?_eq_none_iff]
  intro k _
  rw [if_neg]
  rintro ⟨-, h2⟩
  exact h (List.mem_of_getElem? h2)

/-- **C96 (paths).**  A path without an opening brace is the file itself; `file{n}` is number `n` of the file, whatever other characters — also
braces — its name contains. -/
theorem C96_path (int : Path → Option Int) (p f : Path) (id : Option Int) (h : Points int p f id) : parsePath int p = .ok (f, id) := by
  cases h with
  | plain p h => rw [parsePath, specifier_none h]
  | numbered f g n hf hg hb hn =>
    rw [parsePath, show f ++ '{' :: g ++ ['}'] = f ++ '{' :: g ++ '}' :: [] from rfl, specifier_eq hf hg hb (by simp) (by simp)]
    simp only [hn]

example : Points (fun _ => none) "s.pha".toList "s.pha".toList none := .plain _ (by decide)

/-- **C96 (a brace at the beginning).**  A path whose only opening brace is its first character is the file itself. -/
theorem C96_leading (int : Path → Option Int) (q : Path) (h : '{' ∉ q) : parsePath int ('{' :: q) = .ok ('{' :: q, none) := by
  have : specifier ('{' :: q) = none := by
    rw [specifier, List.findSome?_eq_none_iff]
    intro k _
    rw [if_neg]
    rintro ⟨h1, h2⟩
    obtain ⟨k, rfl⟩ : ∃ i, k = i + 1 := ⟨k - 1, by omega⟩
    rw [List.getElem?_cons_succ] at h2
    exact h (List.mem_of_getElem? h2)
  rw [parsePath, this]

/-- A conversion for the examples: one digit. -/
def exInt (g : Path) : Option Int :=
  match g with
  | [c] => if c.isDigit then some (c.toNat - 48) else none
  | _ => none

example : parsePath exInt "{1}x.pha".toList = .ok ("{1}x.pha".toList, none) := C96_leading exInt "1}x.pha".toList (by decide)

example : Points exInt "a{b}/x.pha2{3}".toList "a{b}/x.pha2".toList (some 3) :=
  Points.numbered "a{b}/x.pha2".toList ['3'] 3 (by decide) (by decide) (by decide) (by decide)

/-- **C96 (paths, refuted).**  A pair of braces in the middle of a path is taken for a number as well: a spectrum in a directory whose name
contains braces is never read — the text before the brace is opened instead, or, if the text between the braces is no integer, the call
raises `ValueError`. -/
theorem C96_directory_refuted (int : Path → Option Int) (fs : Files) (f g rest : Path) (poisson : Option Bool) (hf : f ≠ []) (hg : g ≠ [])
    (hb : '{' ∉ g) (hr : '{' ∉ rest) (hr' : '}' ∉ rest) :
    parsePath int (f ++ '{' :: g ++ '}' :: rest) = (match int g with | none => .error (.py .valueError) | some n => .ok (f, some n)) ∧
    (fs.spec f = none → ∃ e, loadSpectrum int fs (f ++ '{' :: g ++ '}' :: rest) poisson = .error e) := by
  have h : parsePath int (f ++ '{' :: g ++ '}' :: rest) = (match int g with | none => .error (.py .valueError) | some n => .ok (f, some n)) := by
    rw [parsePath, specifier_eq hf hg hb hr hr']
    cases hi : int g <;> simp only [hi]
  refine ⟨h, fun hfs => ?_⟩
  rw [loadSpectrum, h]
  cases int g with
  | none => exact ⟨_, rfl⟩
  | some n => exact ⟨.noFile, by simp only [hfs]⟩

example : parsePath exInt "data/{new}/s.pha".toList = .error (.py .valueError) :=
  (C96_directory_refuted exInt ⟨fun _ => none, fun _ => none, fun _ => none⟩ "data/".toList "new".toList "/s.pha".toList none (by decide)
    (by decide) (by decide) (by decide) (by decide)).1

/-! ## Rows -/

theorem sliceOne_nat {A : Type} (rows : List A) (k : Nat) : sliceOne rows (k : Int) = (rows[k]?).toList := by
  have h1 : bound rows.length (k : Int) = min k rows.length := by simp [bound]
  have h2 : bound rows.length ((k : Int) + 1) = min (k + 1) rows.length := by
    rw [bound, if_neg (by omega)]
    congr 1
  rw [sliceOne, h1, h2]
  by_cases hk : k < rows.length
  · rw [Nat.min_eq_left (by omega), Nat.min_eq_left (by omega), List.getElem?_eq_getElem hk]
    apply List.ext_getElem?
    intro i
    rw [List.getElem?_drop, List.getElem?_take]
    rcases Nat.eq_zero_or_pos i with rfl | hi
    · simp [hk]
    · rw [if_neg (by omega)]
      simp only [Option.toList_some]
      rw [List.getElem?_eq_none (by simp; omega)]
  · rw [Nat.min_eq_right (by omega), List.getElem?_eq_none (by omega)]
    simp

/-- **C96 (rows).**  Number `n ≥ 1` selects the `n`-th row of a type II file, and raises `IndexError` if there are fewer rows; without a number a
type I file is read as a whole, provided that its header does not contradict (`DETCHANS`, `HDUCLAS4`); a type II file without a number is always refused
with `ValueError`. -/
theorem C96_row (t : SpecFile) :
    (∀ rows, t.content = .inr rows → ∀ k : Nat, (∀ r, rows[k]? = some r → t.row (some ((k : Int) + 1)) = .ok r) ∧
      (rows.length ≤ k → t.row (some ((k : Int) + 1)) = .error .indexError)) ∧
    (∀ rows, t.content = .inr rows → t.row none = .error .valueError) ∧
    (∀ p, t.content = .inl p → ∀ r, t.row none = .ok r ↔ r = p ∧ t.hduclas4 = false ∧ (∀ d, t.detchans = some d → d = (p.pha.countsArr.length : Int))) ∧
    (∀ p, t.content = .inl p → ∀ n, t.row (some n) = .error .typeError) := by
  refine ⟨fun rows h k => ⟨fun r hr => ?_, fun hk => ?_⟩, fun rows h => ?_, fun p h r => ?_, fun p h n => ?_⟩
  · simp only [SpecFile.row, h]
    rw [show (k : Int) + 1 - 1 = k by omega, sliceOne_nat, hr]
    rfl
  · simp only [SpecFile.row, h]
    rw [show (k : Int) + 1 - 1 = k by omega, sliceOne_nat, List.getElem?_eq_none hk]
    rfl
  · simp only [SpecFile.row, h]
    split_ifs <;> rfl
  · have hl : t.len = p.pha.countsArr.length := by simp only [SpecFile.len, h]
    simp only [SpecFile.row, h, hl]
    cases hd : t.detchans with
    | none => cases t.hduclas4 <;> simp [eq_comm]
    | some d =>
      simp only [Option.getD_some]
      by_cases hc : d = (p.pha.countsArr.length : Int)
      · rw [if_neg (by simp [hc])]
        cases t.hduclas4 <;> simp [hc, eq_comm]
      · rw [if_pos hc]
        simp [hc]
  · simp only [SpecFile.row, h]

/-- **C96 (rows, refuted).**  A negative number is not refused: `file{-1}` is the last row but one, `file{-2}` the one before, and so on; nothing
selects the last row in this way. -/
theorem C96_negative_refuted (rows : List PhaRow) (k : Nat) (hk : 1 ≤ k) (hl : k < rows.length) (t : SpecFile) (h : t.content = .inr rows) :
    ∃ r, rows[rows.length - 1 - k]? = some r ∧ t.row (some (-(k : Int))) = .ok r := by
  have hi : rows.length - 1 - k < rows.length := by omega
  refine ⟨rows[rows.length - 1 - k], List.getElem?_eq_getElem hi, ?_⟩
  simp only [SpecFile.row, h]
  have e : sliceOne rows (-(k : Int) - 1) = sliceOne rows ((rows.length - 1 - k : Nat) : Int) := by
    have h1 : bound rows.length (-(k : Int) - 1) = bound rows.length ((rows.length - 1 - k : Nat) : Int) := by
      rw [bound, bound, if_pos (by omega), if_neg (by omega)]
      omega
    have h2 : bound rows.length (-(k : Int) - 1 + 1) = bound rows.length (((rows.length - 1 - k : Nat) : Int) + 1) := by
      rw [bound, bound, if_pos (by omega), if_neg (by omega)]
      omega
    rw [sliceOne, sliceOne, h1, h2]
  rw [e, sliceOne_nat, List.getElem?_eq_getElem hi]
  rfl

/-! ## Files -/

theorem fileField_nil (h : Option Path) : fileField h = [] ↔ NoFile h := by
  cases h with
  | none => simp [fileField, NoFile]
  | some f =>
    simp only [fileField, NoFile, Option.some.injEq, reduceCtorEq, false_or]
    split_ifs with hm
    · simp only [List.mem_cons, List.not_mem_nil, or_false] at hm
      simp only [true_iff]
      exact Or.inr hm
    · simp only [List.mem_cons, List.not_mem_nil, or_false] at hm
      constructor
      · intro e; exact .inl e
      · rintro (e | e)
        · exact e
        · exact absurd e hm

theorem fileField_some {h : Option Path} (hn : ¬ NoFile h) : h = some (fileField h) := by
  cases h with
  | none => exact absurd (.inl rfl) hn
  | some f =>
    rw [fileField, if_neg]
    intro hm
    simp only [List.mem_cons, List.not_mem_nil, or_false] at hm
    exact hn (.inr (.inr (by simpa using hm)))

theorem fileOr_cases (arg header : Option Path) :
    (fileOr arg (fileField header) = [] ∧ Unnamed arg header) ∨ Named arg header (fileOr arg (fileField header)) := by
  have key : ∀ a : Option Path, a.getD [] = [] ↔ a = none ∨ a = some [] := by
    intro a; cases a <;> simp
  by_cases ha : arg.getD [] = []
  · have hf : fileOr arg (fileField header) = fileField header := by rw [fileOr, if_neg (by simpa using ha)]
    rw [hf]
    by_cases hn : NoFile header
    · exact .inl ⟨(fileField_nil header).2 hn, (key arg).1 ha, hn⟩
    · exact .inr ⟨fun e => hn ((fileField_nil header).1 e), .inr ⟨(key arg).1 ha, fileField_some hn, hn⟩⟩
  · have hf : fileOr arg (fileField header) = arg.getD [] := by rw [fileOr, if_pos ha]
    rw [hf]
    refine .inr ⟨ha, .inl ?_⟩
    cases arg with
    | none => simp at ha
    | some p => rfl

theorem named_unique {arg header : Option Path} {f : Path} (h : Named arg header f) : fileOr arg (fileField header) = f := by
  obtain ⟨hf, rfl | ⟨ha, hh, hn⟩⟩ := h
  · simp [fileOr, hf]
  · have : fileField header = f := by
      have := fileField_some hn
      rw [hh] at this ⊢
      exact (Option.some.inj this).symm
    rw [this]
    rcases ha with rfl | rfl <;> simp [fileOr]

theorem unnamed_nil {arg header : Option Path} (h : Unnamed arg header) : fileOr arg (fileField header) = [] := by
  rw [(fileField_nil header).2 h.2]
  rcases h.1 with rfl | rfl <;> simp [fileOr]

/-- What an accepted call read. -/
structure Read (int : Path → Option Int) (fs : Files) (a : LoadArgs) (row : PhaRow) (d : Loaded) : Prop where
  spec : row.pha.read a.specPoisson = .ok d.obs.spec
  name : dataName a.name row.names = .ok d.name
  resp : ∃ rp, Named a.resp row.resp rp ∧
    ((∃ ap, Named a.ancr row.ancr ap ∧ loadResponse int fs rp ap = .ok d.obs.resp) ∨
      (Unnamed a.ancr row.ancr ∧ loadResponse int fs rp [] = .ok d.obs.resp))
  back : (Unnamed a.back row.back ∧ d.obs.back = none) ∨
    ∃ bp b br, Named a.back row.back bp ∧ loadSpectrum int fs bp a.backPoisson = .ok (b, br) ∧ d.obs.back = some b
  size : d.obs.spec.counts.length = d.obs.resp.channelNumber ∧ ∀ b, d.obs.back = some b → b.counts.length = d.obs.resp.channelNumber
  erange : d.obj.erange.Perm a.erange

theorem loadSpectrum_ok {int : Path → Option Int} {fs : Files} {p : Path} {po : Option Bool} {s : Spectrum} {r : PhaRow} :
    loadSpectrum int fs p po = .ok (s, r) ↔
      ∃ f id t, parsePath int p = .ok (f, id) ∧ fs.spec f = some t ∧ t.row id = .ok r ∧ r.pha.read po = .ok s := by
  rw [loadSpectrum]
  cases hp : parsePath int p with
  | error e => simp
  | ok q =>
    obtain ⟨f, id⟩ := q
    simp only [Except.ok.injEq, Prod.mk.injEq]
    cases ht : fs.spec f with
    | none =>
      simp only [reduceCtorEq, false_iff]
      rintro ⟨f', id', t, ⟨rfl, rfl⟩, h2, -⟩
      rw [ht] at h2; cases h2
    | some t =>
      simp only
      cases hr : t.row id with
      | error e =>
        simp only [reduceCtorEq, false_iff]
        rintro ⟨f', id', t', ⟨rfl, rfl⟩, h2, h3, -⟩
        rw [ht] at h2; cases h2; rw [hr] at h3; cases h3
      | ok r' =>
        simp only
        cases hq : r'.pha.read po with
        | error e =>
          simp only [reduceCtorEq, false_iff]
          rintro ⟨f', id', t', ⟨rfl, rfl⟩, h2, h3, h4⟩
          rw [ht] at h2; cases h2; rw [hr] at h3; cases h3; rw [hq] at h4; cases h4
        | ok s' =>
          simp only [Except.ok.injEq, Prod.mk.injEq]
          constructor
          · rintro ⟨rfl, rfl⟩
            exact ⟨f, id, t, ⟨rfl, rfl⟩, ht, hr, hq⟩
          · rintro ⟨f', id', t', ⟨rfl, rfl⟩, h2, h3, h4⟩
            rw [ht] at h2; cases h2; rw [hr] at h3; cases h3; rw [hq] at h4; cases h4
            exact ⟨rfl, rfl⟩

theorem finish_ok {a : LoadArgs} {name : String} {spec : Spectrum} {back : Option Spectrum} {resp : Response} {d : Loaded}
    (h : finish a name spec back resp = .ok d) :
    d.name = name ∧ d.obs.spec = spec ∧ d.obs.back = back ∧ d.obs.resp = resp ∧ d.obj.erange.Perm a.erange ∧
      spec.counts.length = resp.channelNumber ∧ (back.map fun b => b.counts.length).getD resp.channelNumber = resp.channelNumber := by
  simp only [finish, bind, Except.bind, pure, Except.pure] at h
  cases ho : Obs.make spec back resp a.ignoreBad with
  | error e => rw [ho] at h; cases h
  | ok o =>
    rw [ho] at h
    simp only at h
    have hm := ho
    simp only [Obs.make] at hm
    split_ifs at hm with h1 h2 h3
    obtain rfl := (Except.ok.inj hm).symm
    cases hx : ObsObj.new ⟨spec, back, resp, goodBoth a.ignoreBad spec back⟩ a.erange with
    | error e => rw [hx] at h; cases h
    | ok x =>
      rw [hx] at h
      simp only at h
      have hperm : x.erange.Perm a.erange := by
        simp only [ObsObj.new, bind, Except.bind, pure, Except.pure] at hx
        cases hc : checkErange a.erange with
        | error e => rw [hc] at hx; cases hx
        | ok s =>
          rw [hc] at hx
          simp only at hx
          split at hx
          · cases hx
          · obtain rfl := (Except.ok.inj hx).symm
            exact ((checkErange_spec a.erange).2.2 s hc).1
      push Not at h1 h2
      cases hg : a.group with
      | none =>
        rw [hg] at h
        obtain rfl := (Except.ok.inj h).symm
        exact ⟨rfl, rfl, rfl, rfl, hperm, h1, h2⟩
      | some q =>
        obtain ⟨m, sc, pr⟩ := q
        rw [hg] at h
        simp only at h
        split at h
        · cases h
        · obtain rfl := (Except.ok.inj h).symm
          exact ⟨rfl, rfl, rfl, rfl, hperm, h1, h2⟩

/-- **C96 (files).**  Whatever is in the files: if `Data(...)` succeeds, the spectrum is the selected one, the name is the given one or that of
the header, the response, the ancillary response and the background are the given ones, or else those named in the header of the selected spectrum, with no
background exactly if none is named; all have the same number of channels, and the energy ranges are those asked for. -/
theorem C96_files (int : Path → Option Int) (fs : Files) (a : LoadArgs) (d : Loaded) (f : Path) (id : Option Int) (hp : Points int a.spec f id)
    (hid : ∀ n, id = some n → 1 ≤ n) (h : loadData int fs a = .ok d) :
    ∃ t row, fs.spec f = some t ∧ Selected t id row ∧ Read int fs a row d := by
  rw [loadData] at h
  cases hs : loadSpectrum int fs a.spec a.specPoisson with
  | error e => rw [hs] at h; cases h
  | ok q =>
    obtain ⟨spec, row⟩ := q
    rw [hs] at h
    obtain ⟨f', id', t, h1, ht, hrow, hread⟩ := loadSpectrum_ok.1 hs
    rw [C96_path int _ _ _ hp] at h1
    simp only [Except.ok.injEq, Prod.mk.injEq] at h1
    obtain ⟨rfl, rfl⟩ := h1
    simp only at h
    cases hn : dataName a.name row.names with
    | error e => rw [hn] at h; cases h
    | ok name =>
      rw [hn] at h
      simp only at h
      cases hr : loadResp int fs a row with
      | error e => rw [hr] at h; cases h
      | ok resp =>
        rw [hr] at h
        simp only at h
        split_ifs at h with hsz
        cases hb : loadBack int fs a row with
        | error e => rw [hb] at h; cases h
        | ok back =>
          rw [hb] at h
          simp only at h
          cases hf : finish a name spec back resp with
          | error e => rw [hf] at h; cases h
          | ok d' =>
            rw [hf] at h
            obtain rfl := (Except.ok.inj h).symm
            obtain ⟨e1, e2, e3, e4, e5, e6, e7⟩ := finish_ok hf
            refine ⟨t, row, ht, ?_, ⟨by rw [e2]; exact hread, by rw [e1]; exact hn, ?_, ?_, ⟨by rw [e2, e4]; exact e6, ?_⟩, e5⟩⟩
            · cases id with
              | none =>
                cases hc : t.content with
                | inl p => exact .inl ⟨rfl, by rw [hc, (((C96_row t).2.2.1 p hc row).1 hrow).1]⟩
                | inr rows => rw [(C96_row t).2.1 rows hc] at hrow; cases hrow
              | some n =>
                cases hc : t.content with
                | inl p => rw [(C96_row t).2.2.2 p hc n] at hrow; cases hrow
                | inr rows =>
                  obtain ⟨k, rfl⟩ : ∃ k : Nat, n = (k : Int) + 1 := ⟨(n - 1).toNat, by have := hid n rfl; omega⟩
                  refine .inr ⟨k, rows, rfl, hc, ?_⟩
                  cases hk : rows[k]? with
                  | none =>
                    rw [((C96_row t).1 rows hc k).2 (List.getElem?_eq_none_iff.1 hk)] at hrow
                    cases hrow
                  | some r =>
                    rw [((C96_row t).1 rows hc k).1 r hk] at hrow
                    rw [Except.ok.inj hrow]
            · rw [e4]
              rw [loadResp] at hr
              rcases fileOr_cases a.resp row.resp with ⟨hnil, -⟩ | hnamed
              · rw [if_pos hnil] at hr; cases hr
              · rw [if_neg hnamed.1] at hr
                refine ⟨_, hnamed, ?_⟩
                rcases fileOr_cases a.ancr row.ancr with ⟨hnil, hu⟩ | ha
                · right; rw [hnil] at hr; exact ⟨hu, hr⟩
                · left; exact ⟨_, ha, hr⟩
            · rw [e3]
              rw [loadBack] at hb
              rcases fileOr_cases a.back row.back with ⟨hnil, hu⟩ | hnamed
              · rw [if_pos hnil] at hb
                exact .inl ⟨hu, (Except.ok.inj hb).symm⟩
              · rw [if_neg hnamed.1] at hb
                cases hl : loadSpectrum int fs (fileOr a.back (fileField row.back)) a.backPoisson with
                | error e => rw [hl] at hb; cases hb
                | ok b =>
                  rw [hl] at hb
                  obtain ⟨b, br⟩ := b
                  exact .inr ⟨_, b, br, hnamed, hl, (Except.ok.inj hb).symm⟩
            · rw [e3, e4]
              intro b hb'
              rw [hb'] at e7
              simpa using e7

/-- **C96 (refusals).**  Once the spectrum is read: without a usable name, and without a response in argument or header, `Data(...)` raises
`ValueError`; a named response, background or ancillary response that cannot be opened is an error, never ignored. -/
theorem C96_refused (int : Path → Option Int) (fs : Files) (a : LoadArgs) (s : Spectrum) (row : PhaRow)
    (hs : loadSpectrum int fs a.spec a.specPoisson = .ok (s, row)) :
    (∀ e, dataName a.name row.names = .error e → loadData int fs a = .error (.py e)) ∧
    (Unnamed a.resp row.resp → ∃ e, loadData int fs a = .error (.py e)) ∧
    (∀ rp, Named a.resp row.resp rp → '{' ∉ rp → fs.resp rp = none → ∃ e, loadData int fs a = .error e) ∧
    (∀ ap, Named a.ancr row.ancr ap → fs.arf ap = none → ∃ e, loadData int fs a = .error e) ∧
    (∀ bp, Named a.back row.back bp → '{' ∉ bp → fs.spec bp = none → ∃ e, loadData int fs a = .error e) := by
  have key : (∃ e, loadResp int fs a row = .error e) → ∃ e, loadData int fs a = .error e := by
    rintro ⟨e, he⟩
    rw [loadData, hs]
    simp only [he]
    cases dataName a.name row.names <;> exact ⟨_, rfl⟩
  refine ⟨fun e he => ?_, fun hu => ?_, fun rp hr hp hn => key ?_, fun ap ha hn => key ?_, fun bp hb hp hn => ?_⟩
  · rw [loadData, hs]; simp only [he]
  · have he : loadResp int fs a row = .error (.py .valueError) := if_pos (unnamed_nil hu)
    rw [loadData, hs]
    simp only [he]
    cases dataName a.name row.names <;> exact ⟨_, rfl⟩
  · have e : fileOr a.resp (fileField row.resp) = rp := named_unique hr
    rw [loadResp, e, if_neg hr.1, loadResponse, C96_path int rp rp none (.plain rp hp)]
    simp only [hn]
    exact ⟨_, rfl⟩
  · have e : fileOr a.ancr (fileField row.ancr) = ap := named_unique ha
    have hl : loadArf fs ap = .error .noFile := by simp only [loadArf, if_neg ha.1, hn]
    rw [loadResp, e]
    split_ifs
    · exact ⟨_, rfl⟩
    · rw [loadResponse]
      cases parsePath int (fileOr a.resp (fileField row.resp)) with
      | error e => exact ⟨_, rfl⟩
      | ok q =>
        obtain ⟨f, id⟩ := q
        simp only
        cases fs.resp f with
        | none => exact ⟨_, rfl⟩
        | some exts =>
          simp only
          cases exts (id.getD 1) with
          | none => exact ⟨_, rfl⟩
          | some m => simp only [hl]; exact ⟨_, rfl⟩
  · have e : fileOr a.back (fileField row.back) = bp := named_unique hb
    have hl : loadSpectrum int fs bp a.backPoisson = .error .noFile := by
      rw [loadSpectrum, C96_path int bp bp none (.plain bp hp)]
      simp only [hn]
    have hb' : loadBack int fs a row = .error .noFile := by
      rw [loadBack, e, if_neg hb.1]; simp only [hl]
    rw [loadData, hs]
    simp only [hb']
    cases dataName a.name row.names with
    | error e => exact ⟨_, rfl⟩
    | ok name =>
      simp only
      cases loadResp int fs a row with
      | error e => exact ⟨_, rfl⟩
      | ok resp =>
        simp only
        split_ifs <;> exact ⟨_, rfl⟩

/-- **C96 (header background).**  A background named in the header cannot be left out: no arguments give an observation without it. -/
theorem C96_background_kept (int : Path → Option Int) (fs : Files) (a : LoadArgs) (d : Loaded) (s : Spectrum) (row : PhaRow)
    (hs : loadSpectrum int fs a.spec a.specPoisson = .ok (s, row)) (hh : ¬ NoFile row.back) (h : loadData int fs a = .ok d) : d.obs.back ≠ none := by
  rw [loadData, hs] at h
  simp only at h
  cases hn : dataName a.name row.names with
  | error e => rw [hn] at h; cases h
  | ok name =>
    rw [hn] at h; simp only at h
    cases hr : loadResp int fs a row with
    | error e => rw [hr] at h; cases h
    | ok resp =>
      rw [hr] at h; simp only at h
      split_ifs at h
      cases hb : loadBack int fs a row with
      | error e => rw [hb] at h; cases h
      | ok back =>
        rw [hb] at h; simp only at h
        cases hf : finish a name s back resp with
        | error e => rw [hf] at h; cases h
        | ok d' =>
          rw [hf] at h
          obtain rfl := (Except.ok.inj h).symm
          rw [(finish_ok hf).2.2.1]
          rw [loadBack] at hb
          rcases fileOr_cases a.back row.back with ⟨-, hu⟩ | hnamed
          · exact absurd hu.2 hh
          · rw [if_neg hnamed.1] at hb
            cases hl : loadSpectrum int fs (fileOr a.back (fileField row.back)) a.backPoisson with
            | error e => rw [hl] at hb; cases hb
            | ok b =>
              rw [hl] at hb
              obtain rfl := (Except.ok.inj hb).symm
              simp

/-- **C96 (type II).**  Row `n` of a type II file gives the same observation as a type I file that contains this row alone: the other rows do not
matter. -/
theorem C96_type_two (int : Path → Option Int) (fs : Files) (a : LoadArgs) (f g p : Path) (k : Nat) (t t' : SpecFile) (rows : List PhaRow) (row : PhaRow)
    (hf : f ≠ []) (hg : g ≠ []) (hb : '{' ∉ g) (hn : int g = some ((k : Int) + 1)) (hp : '{' ∉ p)
    (ht : fs.spec f = some t) (hr : t.content = .inr rows) (hk : rows[k]? = some row)
    (ht' : fs.spec p = some t') (hr' : t'.content = .inl row) (h4 : t'.hduclas4 = false) (hd : t'.detchans = none) :
    loadData int fs { a with spec := f ++ '{' :: g ++ ['}'] } = loadData int fs { a with spec := p } := by
  have h1 : ∀ po, loadSpectrum int fs (f ++ '{' :: g ++ ['}']) po = loadSpectrum int fs p po := by
    intro po
    have e1 : t.row (some ((k : Int) + 1)) = .ok row := ((C96_row t).1 rows hr k).1 row hk
    have e2 : t'.row none = .ok row := ((C96_row t').2.2.1 row hr' row).2 ⟨rfl, h4, by simp [hd]⟩
    rw [loadSpectrum, loadSpectrum, C96_path int _ _ _ (.numbered f g _ hf hg hb hn), C96_path int _ _ _ (.plain p hp)]
    simp only [ht, ht', e1, e2]
  simp only [loadData, h1]
  rfl

/-! ## Acceptance -/

theorem read_legal {p : Pha} {po : Option Bool} {s : Spectrum} (h : p.read po = .ok s) : ∃ n, s.Legal n := by
  obtain ⟨-, b, -, -, hi⟩ := read_ok.1 h
  exact ⟨_, ((C21_spectrum _).2 s hi).1⟩

theorem build_legal {m : Rmf} {arf : Option (List ℝ)} {r : Response} (h : m.build arf = .ok r) : ∃ n, r.Legal n := by
  simp only [Rmf.build, bind, Except.bind] at h
  cases hg : photonGrid m.elo m.ehi with
  | error e => rw [hg] at h; cases h
  | ok grid =>
    rw [hg] at h; simp only at h
    cases hd : m.detchans with
    | none => simp [readMatrix, hd] at h
    | some nc =>
      cases hm : readMatrix m.detchans m.tlmin m.rows with
      | error e => rw [hm] at h; cases h
      | ok mat =>
        rw [hm] at h; simp only at h
        have hrect : ∀ row ∈ mat, row.length = nc := by
          simp only [readMatrix, hd, bind, Except.bind] at hm
          cases hc : rmfRows (m.tlmin.getD 1) 0 m.rows with
          | error e => rw [hc] at hm; cases hm
          | ok c =>
            rw [hc] at hm; simp only [cooArray] at hm
            split_ifs at hm
            obtain rfl := Except.ok.inj hm
            intro row hrow
            obtain ⟨i, -, rfl⟩ := List.mem_map.1 hrow
            simp
        cases ha : applyArf mat arf with
        | error e => rw [ha] at h; cases h
        | ok mat' =>
          rw [ha] at h; simp only at h
          have hrect' : ∀ row ∈ mat', row.length = nc := by
            cases arf with
            | none => obtain rfl := Except.ok.inj ha; exact hrect
            | some v =>
              simp only [applyArf] at ha
              split_ifs at ha
              obtain rfl := Except.ok.inj ha
              intro row hrow
              obtain ⟨i, hi, rfl⟩ := List.mem_iff_getElem.1 hrow
              simp only [List.getElem_zipWith, List.length_map]
              exact hrect _ (List.getElem_mem _)
          rw [hd] at h
          exact ⟨_, ((C21_response _ _ _ _ _ _ _ hrect').2 r h).1⟩

theorem loadResponse_legal {int : Path → Option Int} {fs : Files} {p ancr : Path} {r : Response} (h : loadResponse int fs p ancr = .ok r) :
    ∃ n, r.Legal n := by
  rw [loadResponse] at h
  cases hp : parsePath int p with
  | error e => rw [hp] at h; cases h
  | ok q =>
    obtain ⟨f, id⟩ := q
    rw [hp] at h; simp only at h
    cases hf : fs.resp f with
    | none => rw [hf] at h; cases h
    | some exts =>
      rw [hf] at h; simp only at h
      cases he : exts (id.getD 1) with
      | none => rw [he] at h; cases h
      | some m =>
        rw [he] at h; simp only at h
        cases ha : loadArf fs ancr with
        | error e => rw [ha] at h; cases h
        | ok arf =>
          rw [ha] at h; simp only at h
          cases hb : m.build arf with
          | error e => rw [hb] at h; cases h
          | ok r' => rw [hb] at h; obtain rfl := Except.ok.inj h; exact build_legal hb

/-- Quality flags that exclude a channel. -/
def Excluded (ignoreBad : Bool) (q : List Int) (i : Nat) : Prop := q[i]? = some 1 ∨ (ignoreBad = true ∧ (q[i]? = some 2 ∨ q[i]? = some 5))

/-- **C96 (acceptance).**  Without a grouping method, `Data(...)` succeeds if the spectrum, the response and the background (if one is named) can be
read, a name is found, the numbers of channels agree, some channel is good in spectrum and background, and the energy ranges are proper and
separate. -/
theorem C96_accepted (int : Path → Option Int) (fs : Files) (a : LoadArgs) (s : Spectrum) (row : PhaRow) (name : String) (resp : Response) (back : Option Spectrum)
    (hs : loadSpectrum int fs a.spec a.specPoisson = .ok (s, row)) (hn : dataName a.name row.names = .ok name)
    (hr : loadResp int fs a row = .ok resp) (hb : loadBack int fs a row = .ok back)
    (hl : s.counts.length = resp.channelNumber) (hlb : ∀ b, back = some b → b.counts.length = resp.channelNumber)
    (hg : ∃ i, i < s.counts.length ∧ ¬ Excluded a.ignoreBad s.quality i ∧ ∀ b, back = some b → ¬ Excluded a.ignoreBad b.quality i)
    (he : GoodRanges a.erange) (ha : a.group = none) : ∃ d, loadData int fs a = .ok d := by
  obtain ⟨f, id, t, -, -, -, hread⟩ := loadSpectrum_ok.1 hs
  obtain ⟨n, hsl⟩ := read_legal hread
  have hsn : s.counts.length = n := hsl.counts
  have hrl : ∃ m, resp.Legal m := by
    rw [loadResp] at hr
    split_ifs at hr
    exact loadResponse_legal hr
  obtain ⟨m, hrl⟩ := hrl
  have hrm : resp.channelNumber = m := hrl.emin
  have hbl : ∀ b, back = some b → ∃ k, b.Legal k := by
    rintro b rfl
    rw [loadBack] at hb
    split_ifs at hb
    · cases hb
    · cases hq : loadSpectrum int fs (fileOr a.back (fileField row.back)) a.backPoisson with
      | error e => rw [hq] at hb; cases hb
      | ok q =>
        obtain ⟨b', br⟩ := q
        rw [hq] at hb
        obtain rfl := Option.some.inj (Except.ok.inj hb)
        obtain ⟨_, _, _, _, _, _, h⟩ := loadSpectrum_ok.1 hq
        exact read_legal h
  obtain ⟨ho1, ho2⟩ := C21_observation s back resp a.ignoreBad n m hsl hrl hbl
  obtain ⟨o, ho⟩ := ho1.2 ⟨by omega, fun b h => by rw [hlb b h, hrm], by rw [← hsn]; exact hg⟩
  have hol := (ho2 o ho).1
  obtain ⟨x, hx⟩ := (C15_history o n hol a.erange []).1.2 he
  have hfin : finish a name s back resp = .ok ⟨name, o, x⟩ := by
    simp only [finish, ho, hx, ha, bind, Except.bind, pure, Except.pure]
  refine ⟨⟨name, o, x⟩, ?_⟩
  rw [loadData, hs]
  simp only [hn, hr, hb, hfin]
  rw [if_neg (by simpa using hl)]

/-- the data set without grouping -/
theorem finish_group (a : LoadArgs) (m : Method) (scale : Option ℝ) (preserve : Bool) (name : String) (spec : Spectrum) (back : Option Spectrum) (resp : Response) :
    finish { a with group := some (m, scale, preserve) } name spec back resp =
      (finish { a with group := none } name spec back resp).bind fun d => (d.obs.group d.obj.erange m scale preserve).map fun r => ⟨d.name, d.obs, { d.obj with st := r.st }⟩ := by
  simp only [finish, bind, pure, Except.pure]
  cases Obs.make spec back resp a.ignoreBad with
  | error e => rfl
  | ok o =>
    simp only [Except.bind]
    cases ObsObj.new o a.erange with
    | error e => rfl
    | ok x =>
      simp only
      cases o.group x.erange m scale preserve <;> rfl

/-- **C96 (grouping).**  `Data(..., group=m, scale=..., preserve=...)` is `Data(...)` followed by `group(m, scale, preserve)`: it succeeds exactly if both do, with the same
data set. -/
theorem C96_group (int : Path → Option Int) (fs : Files) (a : LoadArgs) (m : Method) (scale : Option ℝ) (preserve : Bool) (d : Loaded) :
    loadData int fs { a with group := some (m, scale, preserve) } = .ok d ↔
      ∃ d₀ r, loadData int fs { a with group := none } = .ok d₀ ∧ d₀.obs.group d₀.obj.erange m scale preserve = .ok r ∧
        d.name = d₀.name ∧ d.obs = d₀.obs ∧ d.obj.erange = d₀.obj.erange ∧ d.obj.st = r.st := by
  have eB : ∀ g row, loadBack int fs { a with group := g } row = loadBack int fs a row := fun _ _ => rfl
  have eR : ∀ g row, loadResp int fs { a with group := g } row = loadResp int fs a row := fun _ _ => rfl
  have key : ∀ name spec back resp, finish { a with group := some (m, scale, preserve) } name spec back resp = .ok d ↔
      ∃ d₀ r, finish { a with group := none } name spec back resp = .ok d₀ ∧ d₀.obs.group d₀.obj.erange m scale preserve = .ok r ∧
        d.name = d₀.name ∧ d.obs = d₀.obs ∧ d.obj.erange = d₀.obj.erange ∧ d.obj.st = r.st := by
    intro name spec back resp
    rw [finish_group]
    cases hf : finish { a with group := none } name spec back resp with
    | error e =>
      constructor
      · intro h; cases h
      · rintro ⟨d₀, r, h, -⟩; cases h
    | ok d₀ =>
      show (Except.map _ (d₀.obs.group d₀.obj.erange m scale preserve) : Except PyErr Loaded) = .ok d ↔ _
      cases hg : d₀.obs.group d₀.obj.erange m scale preserve with
      | error e =>
        constructor
        · intro h; cases h
        · rintro ⟨d₁, r, h, h', -⟩
          cases h
          rw [hg] at h'; cases h'
      | ok r =>
        constructor
        · intro h
          cases h
          exact ⟨d₀, r, rfl, hg, rfl, rfl, rfl, rfl⟩
        · rintro ⟨d₁, r', h, h', h1, h2, h3, h4⟩
          cases h
          rw [hg] at h'
          cases h'
          obtain ⟨n, o, ⟨er, st⟩⟩ := d
          simp only at h1 h2 h3 h4
          subst h1 h2 h3 h4
          rfl
  simp only [loadData]
  cases loadSpectrum int fs a.spec a.specPoisson with
  | error e => simp
  | ok sr =>
    obtain ⟨spec, row⟩ := sr
    simp only
    cases dataName a.name row.names with
    | error e => simp
    | ok name =>
      simp only [eR, eB]
      cases loadResp int fs a row with
      | error e => simp
      | ok resp =>
        simp only
        split
        · simp
        · cases loadBack int fs a row with
          | error e => simp
          | ok back =>
            simp only
            have := key name spec back resp
            cases h1 : finish { a with group := some (m, scale, preserve) } name spec back resp with
            | error e =>
              rw [h1] at this
              simp only [reduceCtorEq, false_iff, not_exists] at this ⊢
              rintro d₀ r ⟨h, h'⟩
              cases h2 : finish { a with group := none } name spec back resp with
              | error e => rw [h2] at h; cases h
              | ok d₁ =>
                rw [h2] at h
                cases h
                exact this d₀ r ⟨h2, h'⟩
            | ok d' =>
              rw [h1] at this
              simp only [Except.ok.injEq] at this ⊢
              rw [this]
              cases h2 : finish { a with group := none } name spec back resp with
              | error e => simp
              | ok d₁ => simp

end Elisa.Data
