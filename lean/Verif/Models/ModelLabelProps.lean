import Verif.Models.ModelLabel
import Verif.Models.AlgebraProps
import Verif.Models.LabelProps

/-!
# C110: the displayed name of a model denotes the model
-/

namespace Elisa.Models.Algebra

open Elisa Elisa.Models.Label

/-! ## Reading a name -/

section
variable {G ι K P : Type} [CommRing K]

/-- The model a reader understands: a name stands for the component of that name, `+` and `*` act on values, a name in front of parentheses is a convolution.  Other operators do not occur. -/
def readValue (lib : Lib G ι K P) (par : Nat → P) (who : String → Nat) : Read → Option (G → ι → K)
  | .var s => some fun g => lib.fn (who s) g (par (who s))
  | .bin .add l r => match readValue lib par who l, readValue lib par who r with
    | some a, some b => some fun g => a g + b g
    | _, _ => none
  | .bin .mul l r => match readValue lib par who l, readValue lib par who r with
    | some a, some b => some fun g => a g * b g
    | _, _ => none
  | .bin .sub _ _ => none
  | .bin .div _ _ => none
  | .bin .pow _ _ => none
  | .call f a => match readValue lib par who a with
    | some a => some fun g => lib.conv (who f) a g (par (who f))
    | none => none

end

/-- Trees can be added, subtracted, multiplied and divided, as trees. -/
instance : Add Read := ⟨.bin .add⟩
instance : Sub Read := ⟨.bin .sub⟩
instance : Mul Read := ⟨.bin .mul⟩
instance : Div Read := ⟨.bin .div⟩

theorem meaning_self (e : Read) : Label.meaning (fun a b => Read.bin .pow a b) Read.call Read.var e = e := by
  induction e with
  | var s => rfl
  | bin o l r ihl ihr =>
    simp only [Label.meaning, ihl, ihr]
    cases o <;> rfl
  | call f a ih => simp only [Label.meaning, ih]

/-- The grammar is unambiguous: a name can be read in one way only. -/
theorem reads_unique {ts : List Tok} {e e' : Read} (h : Reads .sum ts e) (h' : Reads .sum ts e') : e = e' := by
  have := reads_value_unique (fun a b => Read.bin .pow a b) Read.call Read.var h h'
  rwa [meaning_self, meaning_self] at this

/-- A sum, as opposed to a product, a component or a convolution. -/
def Mod.isSum : Mod → Bool
  | .bin .plus _ _ => true
  | .bin .times _ _ => false
  | .comp _ _ => false
  | .convolved _ _ => false

/-- The tokens of a name. -/
def Mod.toks (name : Nat → String) : Mod → List Tok
  | .comp id _ => [.name (name id)]
  | .bin .plus l r => l.toks name ++ .op .add :: r.toks name
  | .bin .times l r => wrap l.isSum (l.toks name) ++ .op .mul :: wrap r.isSum (r.toks name)
  | .convolved id m => .name (name id) :: .lp :: m.toks name ++ [.rp]

theorem render_append (a b : List Tok) : render (a ++ b) = render a ++ render b := by
  apply String.toList_inj.1
  rw [String.toList_append, render_toList, render_toList, render_toList]
  simp [chars]

theorem render_wrap (m : Mod) (ts : List Tok) (s : String) (h : s = render ts) :
    parenSum "(" ")" m s = render (wrap m.isSum ts) := by
  subst h
  have hp : "(" ++ render ts ++ ")" = render (wrap true ts) := by
    apply String.toList_inj.1
    simp only [String.toList_append, render_toList, wrap]
    simp [chars, Tok.text]
  cases m with
  | comp id ty => rfl
  | convolved id m => rfl
  | bin op l r => cases op with
    | plus => exact hp
    | times => rfl

/-- The printed name is the text of the tokens. -/
theorem nameText_toks (name : Nat → String) (m : Mod) : m.nameText name = render (m.toks name) := by
  induction m with
  | comp id ty =>
    apply String.toList_inj.1
    rw [render_toList]
    simp [Mod.nameText, Mod.toks, chars, Tok.text]
  | bin op l r ihl ihr =>
    cases op with
    | plus =>
      simp only [Mod.nameText, Mod.toks, render_append, ihl, ihr]
      apply String.toList_inj.1
      simp only [String.toList_append, render_toList]
      simp [chars, Tok.text]
    | times =>
      simp only [Mod.nameText, Mod.toks, render_append]
      rw [render_wrap l _ _ ihl, render_wrap r _ _ ihr]
      apply String.toList_inj.1
      simp only [String.toList_append, render_toList]
      simp [chars, Tok.text]
  | convolved id m ih =>
    simp only [Mod.nameText, Mod.toks, ih]
    apply String.toList_inj.1
    simp only [String.toList_append, render_toList]
    simp [chars, Tok.text]

theorem noAdj_toks (name : Nat → String) (m : Mod) : NoAdj (m.toks name) := by
  induction m with
  | comp id ty => simp [Mod.toks, NoAdj]
  | bin op l r ihl ihr =>
    cases op with
    | plus => exact noAdj_mid (.op .add) rfl ihl ihr
    | times => exact noAdj_mid (.op .mul) rfl (noAdj_wrap _ ihl) (noAdj_wrap _ ihr)
  | convolved id m ih =>
    have h1 : NoAdj (m.toks name ++ [.rp]) := noAdj_mid (r := []) .rp rfl ih (by simp [NoAdj])
    have := noAdj_mid (l := [.name (name id)]) .lp rfl (by simp [NoAdj]) h1
    simpa [Mod.toks] using this

theorem mem_comps_convolved (id : Nat) (m : Mod) (x : Nat) : x ∈ (Mod.convolved id m).comps ↔ x = id ∨ x ∈ m.comps := by
  simp only [Mod.comps]
  split_ifs with h
  · constructor
    · exact .inr
    · rintro (rfl | h')
      · exact h
      · exact h'
  · simp only [List.mem_append, List.mem_singleton]
    tauto

theorem name_mem_toks (name : Nat → String) (m : Mod) (s : String) (h : .name s ∈ m.toks name) : ∃ id ∈ m.comps, s = name id := by
  induction m with
  | comp id ty => simp [Mod.toks] at h; exact ⟨id, by simp [Mod.comps], h⟩
  | bin op l r ihl ihr =>
    have h' : .name s ∈ l.toks name ∨ .name s ∈ r.toks name := by
      cases op <;> simpa [Mod.toks, mem_wrap] using h
    rcases h' with h' | h'
    · obtain ⟨id, hid, e⟩ := ihl h'; exact ⟨id, by simp [Mod.comps, mem_appendNew, hid], e⟩
    · obtain ⟨id, hid, e⟩ := ihr h'; exact ⟨id, by simp [Mod.comps, mem_appendNew, hid], e⟩
  | convolved id m ih =>
    have h' : s = name id ∨ .name s ∈ m.toks name := by simpa [Mod.toks] using h
    rcases h' with rfl | h'
    · exact ⟨id, by simp [mem_comps_convolved], rfl⟩
    · obtain ⟨i, hi, e⟩ := ih h'; exact ⟨i, by simp [mem_comps_convolved, hi], e⟩

section
variable {G ι K P : Type} [CommRing K]

theorem value_sum (lib : Lib G ι K P) (par : Nat → P) (who : String → Nat) {l s t a b va vb}
    (hs : Reads .sum s a) (ha : readValue lib par who a = some va) (ht : Reads l t b) (hl : l = .sum)
    (hb : readValue lib par who b = some vb) :
    ∃ e, Reads .sum (s ++ .op .add :: t) e ∧ readValue lib par who e = some fun g => va g + vb g := by
  induction ht generalizing vb with
  | sumProd h _ => exact ⟨_, .add hs h, by simp [readValue, ha, hb]⟩
  | @add s' t' a' b' h1 h2 ih1 ih2 =>
    cases ha' : readValue lib par who a' with
    | none => simp [readValue, ha'] at hb
    | some w =>
      cases hb' : readValue lib par who b' with
      | none => simp [readValue, hb'] at hb
      | some w' =>
        simp only [readValue, ha', hb', Option.some.injEq] at hb
        obtain ⟨e, he, hv⟩ := ih1 rfl ha'
        refine ⟨.bin .add e b', (by simpa using Reads.add he h2), ?_⟩
        simp only [readValue, hv, hb', Option.some.injEq]
        funext g
        rw [← hb]
        exact add_assoc _ _ _
  | sub h1 h2 _ _ => simp [readValue] at hb
  | _ => cases hl

theorem value_prod (lib : Lib G ι K P) (par : Nat → P) (who : String → Nat) {l s t a b va vb}
    (hs : Reads .prod s a) (ha : readValue lib par who a = some va) (ht : Reads l t b) (hl : l = .prod)
    (hb : readValue lib par who b = some vb) :
    ∃ e, Reads .prod (s ++ .op .mul :: t) e ∧ readValue lib par who e = some fun g => va g * vb g := by
  induction ht generalizing vb with
  | prodPow h _ => exact ⟨_, .mul hs h, by simp [readValue, ha, hb]⟩
  | @mul s' t' a' b' h1 h2 ih1 ih2 =>
    cases ha' : readValue lib par who a' with
    | none => simp [readValue, ha'] at hb
    | some w =>
      cases hb' : readValue lib par who b' with
      | none => simp [readValue, hb'] at hb
      | some w' =>
        simp only [readValue, ha', hb', Option.some.injEq] at hb
        obtain ⟨e, he, hv⟩ := ih1 rfl ha'
        refine ⟨.bin .mul e b', (by simpa using Reads.mul he h2), ?_⟩
        simp only [readValue, hv, hb', Option.some.injEq]
        funext g
        rw [← hb]
        exact mul_assoc _ _ _
  | div h1 h2 _ _ => simp [readValue] at hb
  | _ => cases hl

theorem toks_reads (lib : Lib G ι K P) (par : Nat → P) (who : String → Nat) (name : Nat → String) (m : Mod)
    (hw : ∀ id ∈ m.comps, who (name id) = id) :
    (∃ e, Reads .sum (m.toks name) e ∧ readValue lib par who e = some (m.den lib par)) ∧
    (∃ e, Reads .prod (wrap m.isSum (m.toks name)) e ∧ readValue lib par who e = some (m.den lib par)) := by
  have lift : ∀ ts e, Reads .atom ts e → Reads .sum ts e := fun ts e h => .sumProd (.prodPow (.powAtom h))
  induction m with
  | comp id ty =>
    have h : Reads .atom [.name (name id)] (.var (name id)) := .var _
    have hv : readValue lib par who (.var (name id)) = some ((Mod.comp id ty).den lib par) := by
      simp only [readValue, hw id (by simp [Mod.comps])]
      rfl
    exact ⟨⟨_, lift _ _ h, hv⟩, ⟨_, .prodPow (.powAtom h), hv⟩⟩
  | bin op l r ihl ihr =>
    obtain ⟨⟨el, hel, vl⟩, ⟨pl, hpl, wl⟩⟩ := ihl fun id h => hw id (by simp [Mod.comps, mem_appendNew, h])
    obtain ⟨⟨er, her, vr⟩, ⟨pr, hpr, wr⟩⟩ := ihr fun id h => hw id (by simp [Mod.comps, mem_appendNew, h])
    cases op with
    | plus =>
      obtain ⟨e, he, hv⟩ := value_sum lib par who hel vl her rfl vr
      exact ⟨⟨e, he, hv⟩, ⟨e, .prodPow (.powAtom (.paren he)), hv⟩⟩
    | times =>
      obtain ⟨e, he, hv⟩ := value_prod lib par who hpl wl hpr rfl wr
      exact ⟨⟨e, .sumProd he, hv⟩, ⟨e, he, hv⟩⟩
  | convolved id m ih =>
    obtain ⟨⟨e, he, hv⟩, _⟩ := ih fun i h => hw i (by simp [mem_comps_convolved, h])
    have h : Reads .atom ((Mod.convolved id m).toks name) (.call (name id) e) := .call _ he
    have hv' : readValue lib par who (.call (name id) e) = some ((Mod.convolved id m).den lib par) := by
      simp only [readValue, hv, hw id (by simp [mem_comps_convolved])]
      rfl
    exact ⟨⟨_, lift _ _ h, hv'⟩, ⟨_, .prodPow (.powAtom h), hv'⟩⟩

/-- **C110.** The displayed name of a model, as text, denotes the model: split at blanks, operators and parentheses and read with ordinary precedence it can be read in exactly one way, and what is read has, on every grid, the value of the model — for every model, however it is nested, when the component names are plain words and different components have different names. -/
theorem C110_name (lib : Lib G ι K P) (par : Nat → P) (who : String → Nat) (name : Nat → String) (m : Mod)
    (hp : ∀ id ∈ m.comps, PlainName (name id)) (hw : ∀ id ∈ m.comps, who (name id) = id) :
    ∃ e, (∀ e', Reads .sum (tokenise [] (m.nameText name).toList) e' ↔ e' = e) ∧
      ∀ g, ∃ v, readValue lib par who e = some v ∧ m.compiled lib par g = .ok (v g) := by
  have ht : tokenise [] (m.nameText name).toList = m.toks name := by
    rw [nameText_toks, render_toList]
    refine (tokenise_chars _ (noAdj_toks name m) ?_).1
    intro s hs
    obtain ⟨id, hid, rfl⟩ := name_mem_toks name m s hs
    exact hp id hid
  obtain ⟨⟨e, he, hv⟩, _⟩ := toks_reads lib par who name m hw
  rw [ht]
  refine ⟨e, fun e' => ⟨fun h => reads_unique h he, fun h => h ▸ he⟩, fun g => ⟨_, hv, compiled_den lib par m g⟩⟩

end

/-- A photoelectric absorption of a sum of a power law and a convolved blackbody. -/
def exLabelled : Mod := .bin .times (.comp 0 .mul) (.bin .plus (.comp 1 .add) (.convolved 2 (.comp 3 .add)))

def exLabelName (i : Nat) : String := if i = 0 then "PhAbs" else if i = 1 then "PowerLaw" else if i = 2 then "ZAShift" else "Blackbody"

def exLabelWho (s : String) : Nat := if s = "PhAbs" then 0 else if s = "PowerLaw" then 1 else if s = "ZAShift" then 2 else 3

example : exLabelled.nameText exLabelName = "PhAbs * (PowerLaw + ZAShift(Blackbody))" := by decide +kernel

example : (∀ id ∈ exLabelled.comps, PlainName (exLabelName id)) ∧ ∀ id ∈ exLabelled.comps, exLabelWho (exLabelName id) = id := by
  have hc : exLabelled.comps = [0, 1, 3, 2] := by decide
  rw [hc]
  constructor
  · intro id hid
    simp only [List.mem_cons, List.not_mem_nil, or_false] at hid
    rcases hid with rfl | rfl | rfl | rfl <;> exact ⟨by decide +kernel, by decide +kernel⟩
  · decide +kernel

/-! ## The LaTeX label -/

/-- What is visible of a TeX text: its grouping braces are not. -/
def visible (cs : List Char) : List Char := cs.filter fun c => c ≠ '{' && c ≠ '}'

/-- A token in TeX. -/
def texTok : Tok → String
  | .name s => s
  | .op .add => " + "
  | .op .mul => " \\times "
  | .op .sub => " - "
  | .op .div => " / "
  | .op .pow => "^"
  | .lp => "\\left("
  | .rp => "\\right)"

theorem visible_append (a b : List Char) : visible (a ++ b) = visible a ++ visible b := by simp [visible]

theorem latex_wrap (m : Mod) (s : String) (ts : List Tok) (h : visible s.toList = ts.flatMap fun t => visible (texTok t).toList) :
    visible (parenSum "\\left(" "\\right)" m s).toList = (wrap m.isSum ts).flatMap fun t => visible (texTok t).toList := by
  have hp : visible ("\\left(" ++ s ++ "\\right)").toList = (wrap true ts).flatMap fun t => visible (texTok t).toList := by
    simp only [String.toList_append, visible_append, h, wrap]
    simp [texTok]
  cases m with
  | comp id ty => exact h
  | convolved id m => exact h
  | bin op l r => cases op with
    | plus => exact hp
    | times => exact h

/-- **C110.** The LaTeX label shows the same expression as the name: apart from braces, which TeX does not show, it consists of the tokens of the name, with `\times` for the product and `\left(`, `\right)` for the parentheses. -/
theorem C110_latex (name : Nat → String) (m : Mod) :
    visible (m.latex name).toList = (m.toks name).flatMap fun t => visible (texTok t).toList := by
  induction m with
  | comp id ty => simp [Mod.latex, Mod.toks, texTok]
  | bin op l r ihl ihr =>
    cases op with
    | plus =>
      simp only [Mod.latex, Mod.toks, String.toList_append, visible_append, ihl, ihr]
      simp [visible, texTok]
    | times =>
      simp only [Mod.latex, Mod.toks, String.toList_append, visible_append]
      rw [latex_wrap l _ _ ihl, latex_wrap r _ _ ihr]
      simp [visible, texTok]
  | convolved id m ih =>
    simp only [Mod.latex, Mod.toks, String.toList_append, visible_append, ih]
    simp [visible, texTok]

example : exLabelled.latex exLabelName = "{PhAbs} \\times {\\left({PowerLaw} + {{ZAShift}\\left(Blackbody\\right)}\\right)}" := by decide +kernel

/-! ## From ids to names -/

/-- A hexadecimal digit, as in `hex(id(self))[2:]`. -/
def Hex (c : Char) : Prop := c ∈ "0123456789abcdef".toList

/-- The ids of live objects: hexadecimal words of a common length of at least three digits, different for different components. -/
structure Ids (idText : Nat → String) (live : List Nat) : Prop where
  hex : ∀ c ∈ live, ∀ x ∈ (idText c).toList, Hex x
  len : ∃ n, 3 ≤ n ∧ ∀ c ∈ live, (idText c).toList.length = n
  inj : ∀ c ∈ live, ∀ d ∈ live, idText c = idText d → c = d

theorem not_hex_sep (x : Char) (h : x ∈ [' ', '(', ')', '{', '}', '\\', '+', '*']) : ¬ Hex x := by
  simp only [List.mem_cons, List.not_mem_nil, or_false] at h
  rcases h with rfl | rfl | rfl | rfl | rfl | rfl | rfl | rfl <;> unfold Hex <;> decide

theorem replaceAll_drop (k v cs rest : List Char) : replaceAll k v cs.length (cs ++ rest) = replaceAll k v 0 rest := by
  induction cs with
  | nil => rfl
  | cons c cs ih => exact ih

theorem replaceAll_word (k v rest : List Char) (hk : k ≠ []) : replaceAll k v 0 (k ++ rest) = v ++ replaceAll k v 0 rest := by
  cases k with
  | nil => exact absurd rfl hk
  | cons c k =>
    have hp : (c :: k).isPrefixOf (c :: (k ++ rest)) = true := by
      rw [List.isPrefixOf_iff_prefix]; exact ⟨rest, rfl⟩
    rw [List.cons_append, replaceAll, if_pos hp]
    show v ++ replaceAll (c :: k) v k.length (k ++ rest) = _
    rw [replaceAll_drop]

/-- A stretch of text without the id is copied, when the id cannot straddle its end. -/
theorem replaceAll_clean (k v u rest : List Char) (hk : ¬ k <:+: u)
    (hb : (∀ x ∈ u.getLast?, x ∉ k) ∨ (∀ x ∈ rest.head?, x ∉ k)) :
    replaceAll k v 0 (u ++ rest) = u ++ replaceAll k v 0 rest := by
  induction u with
  | nil => rfl
  | cons c u ih =>
    have hp : k.isPrefixOf (c :: (u ++ rest)) = false := by
      by_contra hc
      have hpre : k <+: (c :: u) ++ rest := by
        rw [← List.isPrefixOf_iff_prefix]; simpa using hc
      rcases Nat.lt_or_ge (c :: u).length k.length with hlt | hle
      · obtain ⟨t, ht⟩ := hpre
        have hu : (c :: u) <+: k := List.prefix_of_prefix_length_le ⟨rest, rfl⟩ ⟨t, ht⟩ hlt.le
        obtain ⟨w, hw⟩ := hu
        rcases hb with hb | hb
        · have hl : (c :: u).getLast (by simp) ∈ k := by rw [← hw]; exact List.mem_append_left _ (List.getLast_mem _)
          exact hb _ (by rw [List.getLast?_eq_getLast_of_ne_nil (by simp)]; rfl) hl
        · have hwne : w ≠ [] := by rintro rfl; rw [← hw] at hlt; simp at hlt
          obtain ⟨y, w', rfl⟩ := List.exists_cons_of_ne_nil hwne
          rw [← hw, List.append_assoc] at ht
          have := List.append_cancel_left ht
          exact hb y (by rw [← this]; rfl) (by rw [← hw]; simp)
      · have : k <+: c :: u := List.prefix_of_prefix_length_le hpre ⟨rest, rfl⟩ hle
        exact hk this.isInfix
    rw [List.cons_append, replaceAll, if_neg (by simp [hp])]
    rw [ih (fun h => hk (h.trans (List.suffix_cons c u).isInfix)) ?_]
    · rfl
    · rcases hb with hb | hb
      · left
        intro x hx
        cases u with
        | nil => simp at hx
        | cons d u => exact hb x (by simpa using hx)
      · exact .inr hb

/-- What an id can be mistaken for: nothing but itself. -/
structure Clean (k : List Char) (f : Nat → String) (m : Mod) : Prop where
  hex : ∀ x ∈ k, Hex x
  len : 3 ≤ k.length
  names : ∀ c ∈ m.comps, (f c).toList = k ∨ ¬ k <:+: (f c).toList

/-- The names after replacing the id. -/
def renamed (k : List Char) (v : String) (f : Nat → String) (c : Nat) : String := if (f c).toList = k then v else f c

theorem long_not_infix {k s : List Char} (hk : ∀ x ∈ k, Hex x) (hl : 3 ≤ k.length)
    (hs : ∀ i, i + 2 < s.length → ∃ j, i ≤ j ∧ j ≤ i + 2 ∧ ∀ x ∈ s[j]?, ¬ Hex x) : ¬ k <:+: s := by
  rintro ⟨a, b, rfl⟩
  obtain ⟨j, h1, h2, h3⟩ := hs a.length (by simp; omega)
  obtain ⟨y, hy⟩ : ∃ y, k[j - a.length]? = some y := ⟨k[j - a.length]'(by omega), List.getElem?_eq_getElem (by omega)⟩
  refine h3 y ?_ (hk y (List.mem_of_getElem? hy))
  rw [List.append_assoc, List.getElem?_append_right h1, List.getElem?_append_left (by omega)]
  exact hy

/-- Separators of the labels: no id fits into one, and an id cannot end in one. -/
structure Sep (s : List Char) : Prop where
  runs : ∀ i, i + 2 < s.length → ∃ j, i ≤ j ∧ j ≤ i + 2 ∧ ∀ x ∈ s[j]?, ¬ Hex x
  first : ∀ x ∈ s.head?, ¬ Hex x
  last : ∀ x ∈ s.getLast?, ¬ Hex x
  ne : s ≠ []

instance (c : Char) : Decidable (Hex c) := by unfold Hex; infer_instance

theorem sep_of (s : List Char) (h : (s ≠ [] ∧ (∀ x ∈ s.head?, ¬ Hex x) ∧ ∀ x ∈ s.getLast?, ¬ Hex x) ∧
    ∀ i < s.length, i + 2 < s.length → (∀ x ∈ s[i]?, ¬ Hex x) ∨ (∀ x ∈ s[i + 1]?, ¬ Hex x) ∨ ∀ x ∈ s[i + 2]?, ¬ Hex x) : Sep s where
  runs i hi := by
    rcases h.2 i (by omega) hi with h | h | h
    · exact ⟨i, by omega, by omega, h⟩
    · exact ⟨i + 1, by omega, by omega, h⟩
    · exact ⟨i + 2, by omega, by omega, h⟩
  first := h.1.2.1
  last := h.1.2.2
  ne := h.1.1

theorem seps : ∀ s ∈ [" + ", " * ", "(", ")", "{", "}", "} + {", "} \\times {", "\\left(", "\\right)", "}\\left("], Sep s.toList := by
  intro s hs
  apply sep_of
  revert s
  decide +kernel

theorem replaceAll_sep (k v s rest : List Char) (hk : ∀ x ∈ k, Hex x) (hl : 3 ≤ k.length) (hs : Sep s) :
    replaceAll k v 0 (s ++ rest) = s ++ replaceAll k v 0 rest :=
  replaceAll_clean k v s rest (long_not_infix hk hl hs.runs) (.inl fun x hx hk' => hs.last x hx (hk x hk'))

theorem replaceAll_comp (k v rest : List Char) (f : Nat → String) (c : Nat) (V : String) (hV : V.toList = v)
    (hk : ∀ x ∈ k, Hex x) (hl : 3 ≤ k.length) (hc : (f c).toList = k ∨ ¬ k <:+: (f c).toList)
    (hr : ∀ x ∈ rest.head?, ¬ Hex x) :
    replaceAll k v 0 ((f c).toList ++ rest) = (renamed k V f c).toList ++ replaceAll k v 0 rest := by
  unfold renamed
  split_ifs with h
  · rw [h, hV]
    exact replaceAll_word k v rest (by rintro rfl; simp at hl)
  · exact replaceAll_clean k v _ rest (hc.resolve_left h) (.inr fun x hx hk' => hr x hx (hk x hk'))

theorem head_sep {s rest : List Char} (hs : Sep s) : ∀ x ∈ (s ++ rest).head?, ¬ Hex x := by
  intro x hx
  obtain ⟨c, s', rfl⟩ := List.exists_cons_of_ne_nil hs.ne
  exact hs.first x hx

theorem parenSum_toList (o c : String) (m : Mod) (s : String) :
    (parenSum o c m s).toList = (if m.isSum then o.toList else []) ++ s.toList ++ (if m.isSum then c.toList else []) := by
  cases m with
  | comp id ty => simp [parenSum, Mod.isSum]
  | convolved id m => simp [parenSum, Mod.isSum]
  | bin op l r => cases op <;> simp [parenSum, Mod.isSum]

section
variable {k v : List Char} {V : String}

/-- Replacing an id in a text that begins with the label of a model. -/
def Passes (k v : List Char) (a b : String) : Prop :=
  ∀ rest : List Char, (∀ x ∈ rest.head?, ¬ Hex x) → replaceAll k v 0 (a.toList ++ rest) = b.toList ++ replaceAll k v 0 rest

theorem Passes.paren {o c : String} {a b : String} (m : Mod) (hk : ∀ x ∈ k, Hex x) (hl : 3 ≤ k.length)
    (ho : Sep o.toList) (hc : Sep c.toList) (h : Passes k v a b) : Passes k v (parenSum o c m a) (parenSum o c m b) := by
  intro rest hr
  rw [parenSum_toList, parenSum_toList]
  cases m.isSum with
  | false => simpa using h rest hr
  | true =>
    simp only [if_true, List.append_assoc]
    rw [replaceAll_sep k v _ _ hk hl ho, h _ (head_sep hc), replaceAll_sep k v _ _ hk hl hc]

theorem Passes.sepRight {s a b : String} (hk : ∀ x ∈ k, Hex x) (hl : 3 ≤ k.length) (hs : Sep s.toList) (h : Passes k v a b) :
    Passes k v (a ++ s) (b ++ s) := by
  intro rest hr
  rw [String.toList_append, String.toList_append, List.append_assoc, List.append_assoc, h _ (head_sep hs), replaceAll_sep k v _ _ hk hl hs]

theorem Passes.sepLeft {s a b : String} (hk : ∀ x ∈ k, Hex x) (hl : 3 ≤ k.length) (hs : Sep s.toList) (h : Passes k v a b) :
    Passes k v (s ++ a) (s ++ b) := by
  intro rest hr
  rw [String.toList_append, String.toList_append, List.append_assoc, List.append_assoc, replaceAll_sep k v _ _ hk hl hs, h _ hr]

/-- Two labels with a separator in between. -/
theorem Passes.join {s a b a' b' : String} (hk : ∀ x ∈ k, Hex x) (hl : 3 ≤ k.length) (hs : Sep s.toList) (h : Passes k v a b)
    (h' : Passes k v a' b') : Passes k v (a ++ s ++ a') (b ++ s ++ b') := by
  intro rest hr
  rw [String.toList_append, String.toList_append, String.toList_append, String.toList_append]
  simp only [List.append_assoc]
  rw [h _ (head_sep hs), replaceAll_sep k v _ _ hk hl hs, h' _ hr]

theorem nameText_passes (f : Nat → String) (hV : V.toList = v) (m : Mod) (h : Clean k f m) :
    Passes k v (m.nameText f) (m.nameText (renamed k V f)) := by
  have hk := h.hex
  have hl := h.len
  have S : ∀ s ∈ [" + ", " * ", "(", ")", "{", "}", "} + {", "} \\times {", "\\left(", "\\right)", "}\\left("], Sep s.toList := seps
  induction m with
  | comp id ty => intro rest hr; exact replaceAll_comp k v rest f id V hV hk hl (h.names id (by simp [Mod.comps])) hr
  | bin op l r ihl ihr =>
    have hl' := ihl ⟨hk, hl, fun c hc => h.names c (by simp [Mod.comps, mem_appendNew, hc])⟩
    have hr' := ihr ⟨hk, hl, fun c hc => h.names c (by simp [Mod.comps, mem_appendNew, hc])⟩
    cases op with
    | plus => exact hl'.join hk hl (S " + " (by decide)) hr'
    | times => exact (hl'.paren l hk hl (S "(" (by decide)) (S ")" (by decide))).join hk hl (S " * " (by decide)) (hr'.paren r hk hl (S "(" (by decide)) (S ")" (by decide)))
  | convolved id m ih =>
    have h' := ih ⟨hk, hl, fun c hc => h.names c (by simp [mem_comps_convolved, hc])⟩
    have hid : Passes k v (f id) (renamed k V f id) := fun rest hr =>
      replaceAll_comp k v rest f id V hV hk hl (h.names id (by simp [mem_comps_convolved])) hr
    exact (hid.join hk hl (S "(" (by decide)) h').sepRight hk hl (S ")" (by decide))

theorem latex_passes (f : Nat → String) (hV : V.toList = v) (m : Mod) (h : Clean k f m) :
    Passes k v (m.latex f) (m.latex (renamed k V f)) := by
  have hk := h.hex
  have hl := h.len
  have S : ∀ s ∈ [" + ", " * ", "(", ")", "{", "}", "} + {", "} \\times {", "\\left(", "\\right)", "}\\left("], Sep s.toList := seps
  induction m with
  | comp id ty => intro rest hr; exact replaceAll_comp k v rest f id V hV hk hl (h.names id (by simp [Mod.comps])) hr
  | bin op l r ihl ihr =>
    have hl' := ihl ⟨hk, hl, fun c hc => h.names c (by simp [Mod.comps, mem_appendNew, hc])⟩
    have hr' := ihr ⟨hk, hl, fun c hc => h.names c (by simp [Mod.comps, mem_appendNew, hc])⟩
    cases op with
    | plus => exact ((hl'.sepLeft hk hl (S "{" (by decide))).join hk hl (S "} + {" (by decide)) hr').sepRight hk hl (S "}" (by decide))
    | times =>
      exact (((hl'.paren l hk hl (S "\\left(" (by decide)) (S "\\right)" (by decide))).sepLeft hk hl (S "{" (by decide))).join hk hl
        (S "} \\times {" (by decide)) (hr'.paren r hk hl (S "\\left(" (by decide)) (S "\\right)" (by decide)))).sepRight hk hl (S "}" (by decide))
  | convolved id m ih =>
    have h' := ih ⟨hk, hl, fun c hc => h.names c (by simp [mem_comps_convolved, hc])⟩
    have hid : Passes k v (f id) (renamed k V f id) := fun rest hr =>
      replaceAll_comp k v rest f id V hV hk hl (h.names id (by simp [mem_comps_convolved])) hr
    exact ((hid.sepLeft hk hl (S "{" (by decide))).join hk hl (S "}\\left(" (by decide)) h').sepRight hk hl (S "\\right)" (by decide))

end

/-- Names in which some of the ids have been replaced already. -/
def partly (idText name : Nat → String) (seen : List Nat) (c : Nat) : String := if c ∈ seen then name c else idText c

theorem partly_clean {idText name : Nat → String} {live : List Nat} (hi : Ids idText live) (m : Mod) (hm : ∀ c ∈ m.comps, c ∈ live) (c0 : Nat) (h0 : c0 ∈ live)
    (hn : ∀ c ∈ m.comps, ¬ (idText c0).toList <:+: (name c).toList) (seen : List Nat) : Clean (idText c0).toList (partly idText name seen) m := by
  obtain ⟨n, hn3, hlen⟩ := hi.len
  refine ⟨hi.hex c0 h0, by rw [hlen c0 h0]; exact hn3, fun c hc => ?_⟩
  unfold partly
  split_ifs with h
  · exact .inr (hn c hc)
  · by_cases he : c = c0
    · subst he; exact .inl rfl
    · right
      intro hin
      have := hin.eq_of_length (by rw [hlen c0 h0, hlen c (hm c hc)])
      exact he (hi.inj _ (hm c hc) _ h0 (String.toList_inj.1 this.symm))

theorem renamed_partly {idText name : Nat → String} {live : List Nat} (hi : Ids idText live) (m : Mod) (hm : ∀ c ∈ m.comps, c ∈ live) (c0 : Nat) (h0 : c0 ∈ live)
    (hn : ∀ c ∈ m.comps, ¬ (idText c0).toList <:+: (name c).toList) (seen : List Nat) :
    ∀ c ∈ m.comps, renamed (idText c0).toList (name c0) (partly idText name seen) c = partly idText name (seen ++ [c0]) c := by
  intro c hc
  unfold renamed partly
  by_cases h : c ∈ seen
  · have h1 : (name c).toList ≠ (idText c0).toList := fun he => hn c hc (by rw [he])
    simp [h, h1]
  · by_cases he : c = c0
    · subst he; simp [h]
    · have h1 : (idText c).toList ≠ (idText c0).toList := fun h' => he (hi.inj _ (hm c hc) _ h0 (String.toList_inj.1 h'))
      simp [h, he, h1]

theorem nameText_congr {f g : Nat → String} (m : Mod) (h : ∀ c ∈ m.comps, f c = g c) : m.nameText f = m.nameText g := by
  induction m with
  | comp id ty => exact h id (by simp [Mod.comps])
  | bin op l r ihl ihr =>
    have h1 := ihl fun c hc => h c (by simp [Mod.comps, mem_appendNew, hc])
    have h2 := ihr fun c hc => h c (by simp [Mod.comps, mem_appendNew, hc])
    cases op <;> simp only [Mod.nameText, h1, h2]
  | convolved id m ih =>
    have h1 := ih fun c hc => h c (by simp [mem_comps_convolved, hc])
    simp only [Mod.nameText, h1, h id (by simp [mem_comps_convolved])]

theorem latex_congr {f g : Nat → String} (m : Mod) (h : ∀ c ∈ m.comps, f c = g c) : m.latex f = m.latex g := by
  induction m with
  | comp id ty => exact h id (by simp [Mod.comps])
  | bin op l r ihl ihr =>
    have h1 := ihl fun c hc => h c (by simp [Mod.comps, mem_appendNew, hc])
    have h2 := ihr fun c hc => h c (by simp [Mod.comps, mem_appendNew, hc])
    cases op <;> simp only [Mod.latex, h1, h2]
  | convolved id m ih =>
    have h1 := ih fun c hc => h c (by simp [mem_comps_convolved, hc])
    simp only [Mod.latex, h1, h id (by simp [mem_comps_convolved])]

theorem idToLabel_partly {idText name : Nat → String} {live : List Nat} (hi : Ids idText live) (m : Mod) (hm : ∀ c ∈ m.comps, c ∈ live) (cs : List Nat)
    (hl : ∀ c ∈ cs, c ∈ live) (hn : ∀ d ∈ cs, ∀ c ∈ m.comps, ¬ (idText d).toList <:+: (name c).toList) (seen : List Nat) :
    idToLabel (cs.map fun c => (idText c, name c)) (m.nameText (partly idText name seen)).toList =
      (m.nameText (partly idText name (seen ++ cs))).toList ∧
    idToLabel (cs.map fun c => (idText c, name c)) (m.latex (partly idText name seen)).toList =
      (m.latex (partly idText name (seen ++ cs))).toList := by
  induction cs generalizing seen with
  | nil => simp [idToLabel]
  | cons c0 cs ih =>
    have hc0 := hn c0 (by simp)
    have h1 := nameText_passes (V := name c0) _ rfl m (partly_clean hi m hm c0 (hl c0 (by simp)) hc0 seen) [] (by simp)
    have h2 := latex_passes (V := name c0) _ rfl m (partly_clean hi m hm c0 (hl c0 (by simp)) hc0 seen) [] (by simp)
    rw [nameText_congr m (renamed_partly hi m hm c0 (hl c0 (by simp)) hc0 seen)] at h1
    rw [latex_congr m (renamed_partly hi m hm c0 (hl c0 (by simp)) hc0 seen)] at h2
    simp only [List.append_nil, replaceAll] at h1 h2
    obtain ⟨i1, i2⟩ := ih (fun d hd => hl d (by simp [hd])) (fun d hd => hn d (by simp [hd])) (seen ++ [c0])
    simp only [List.append_assoc, List.singleton_append] at i1 i2
    simp only [idToLabel, List.map_cons, List.foldl_cons] at i1 i2 ⊢
    rw [h1, h2]
    exact ⟨i1, i2⟩

/-- **C110.** Replacing the ids of the components one after the other turns the internal text of a model into the text with the names, both for the plain name and for the LaTeX label: every occurrence of a component is renamed, and nothing else is touched — for all ids the interpreter can hand out, in any order of replacement, whatever further components the mapping contains, as long as no name contains one of the ids. -/
theorem C110_replace {idText name : Nat → String} (m : Mod) (cs : List Nat) (hi : Ids idText cs) (hcs : ∀ c ∈ m.comps, c ∈ cs)
    (hn : ∀ d ∈ cs, ∀ c ∈ m.comps, ¬ (idText d).toList <:+: (name c).toList) :
    idToLabel (cs.map fun c => (idText c, name c)) (m.nameText idText).toList = (m.nameText name).toList ∧
    idToLabel (cs.map fun c => (idText c, name c)) (m.latex idText).toList = (m.latex name).toList := by
  obtain ⟨h1, h2⟩ := idToLabel_partly hi m hcs cs (fun _ h => h) hn []
  have e1 : ∀ c ∈ m.comps, partly idText name [] c = idText c := fun c _ => by simp [partly]
  have e2 : ∀ c ∈ m.comps, partly idText name ([] ++ cs) c = name c := fun c hc => by simp [partly, hcs c hc]
  rw [nameText_congr m e1, nameText_congr m e2] at h1
  rw [latex_congr m e1, latex_congr m e2] at h2
  exact ⟨h1, h2⟩

def exLabelId (i : Nat) : String := if i = 0 then "7f0c3a2b1d50" else if i = 1 then "7f0c3a2b1d90" else if i = 2 then "7f0c3a2b1e10" else "7f0c3a2b1ed0"

example : idToLabel (exLabelled.comps.map fun c => (exLabelId c, exLabelName c)) (exLabelled.nameText exLabelId).toList =
    "PhAbs * (PowerLaw + ZAShift(Blackbody))".toList := by
  have hc : exLabelled.comps = [0, 1, 3, 2] := by decide
  have hi : Ids exLabelId exLabelled.comps := by
    rw [hc]
    refine ⟨by decide +kernel, ⟨12, by decide, by decide +kernel⟩, by decide +kernel⟩
  have := (C110_replace (name := exLabelName) exLabelled exLabelled.comps hi (fun _ h => h) (by rw [hc]; decide +kernel)).1
  rw [this]
  decide +kernel

/-- A name that contains the id of another component would be torn apart: the hypothesis on the names is needed. -/
example : idToLabel [("7f0c3a2b1d50", "x"), ("7f0c3a2b1d90", "y")] ("7f0c3a2b1d90".toList) = "y".toList ∧
    idToLabel [("7f0c3a2b1d50", "PL7f0c3a2b1d90"), ("7f0c3a2b1d90", "y")] ("7f0c3a2b1d50".toList) = "PLy".toList := by
  decide +kernel

end Elisa.Models.Algebra
