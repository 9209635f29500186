import Verif.Models.Algebra
import Mathlib.Algebra.BigOperators.Group.List.Basic

/-!
# C31, C32: type safety and meaning of model expressions, decomposition into additive parts
-/

namespace Elisa.Models.Algebra

/-! ## Specification -/

/-- Typing rules of model expressions. -/
inductive HasType (sup : Nat → MType → Bool) : Expr → MType → Prop where
  | comp (id ty) : HasType sup (.comp id ty) ty
  | add_add {l r} : HasType sup l .add → HasType sup r .add → HasType sup (.bin .plus l r) .add
  | mul_mul {l r} : HasType sup l .mul → HasType sup r .mul → HasType sup (.bin .times l r) .mul
  | add_mul {l r} : HasType sup l .add → HasType sup r .mul → HasType sup (.bin .times l r) .add
  | mul_add {l r} : HasType sup l .mul → HasType sup r .add → HasType sup (.bin .times l r) .add
  | conv {id m ty} : HasType sup m ty → sup id ty = true → HasType sup (.call id m) ty

section
variable {G ι K P : Type} [CommRing K]

/-- The value an expression stands for, energy bin by energy bin. -/
def meaning (lib : Lib G ι K P) (par : Nat → P) : Expr → G → ι → K
  | .comp id _, g, i => lib.fn id g (par id) i
  | .bin .plus l r, g, i => meaning lib par l g i + meaning lib par r g i
  | .bin .times l r, g, i => meaning lib par l g i * meaning lib par r g i
  | .call id m, g, i => lib.conv id (meaning lib par m) g (par id) i

/-- The convolution component acts additively. -/
def Additive (lib : Lib G ι K P) (id : Nat) : Prop :=
  ∀ f h g p, lib.conv id (fun e i => f e i + h e i) g p = fun i => lib.conv id f g p i + lib.conv id h g p i

/-- The convolution components an expression applies to an additive model. -/
def Mod.convIds : Mod → List Nat
  | .comp _ _ => []
  | .bin _ l r => l.convIds ++ r.convIds
  | .convolved id m => id :: m.convIds

end

/-! ## C31 -/

theorem mkBin_ok {op l r m} : mkBin op l r = .ok m ↔ m = .bin op l r ∧
    (match op with
     | .plus => l.type = .add ∧ r.type = .add
     | .times => (l.type = .mul ∧ r.type = .mul) ∨ (l.type = .add ∧ r.type = .mul) ∨ (l.type = .mul ∧ r.type = .add)) := by
  cases op <;> cases hl : l.type <;> cases hr : r.type <;> simp [mkBin, hl, hr, eq_comm]

theorem mkBin_err {op l r e} (h : mkBin op l r = .error e) : e = .typeError := by
  cases op <;> simp only [mkBin] at h <;> split_ifs at h <;> (cases h; try rfl)

/-- A model expression is accepted exactly when it type-checks, the result has that type, and a
rejected expression raises `TypeError`. -/
theorem C31_accepted (sup : Nat → MType → Bool) (e : Expr) :
    (∀ t, HasType sup e t ↔ ∃ m, build sup e = .ok m ∧ m.type = t) ∧
    (∀ err, build sup e = .error err → err = .typeError) := by
  induction e with
  | comp id ty =>
    refine ⟨fun t => ⟨?_, ?_⟩, ?_⟩
    · rintro ⟨⟩; exact ⟨_, rfl, rfl⟩
    · rintro ⟨m, h, rfl⟩; cases h; exact .comp _ _
    · intro err h; cases h
  | bin op l r hl hr =>
    constructor
    · intro t
      constructor
      · intro h
        cases h with
        | add_add h1 h2 =>
          obtain ⟨a, ha, hta⟩ := (hl.1 _).1 h1
          obtain ⟨b, hb, htb⟩ := (hr.1 _).1 h2
          exact ⟨.bin .plus a b, by simp only [build, ha, hb]; exact mkBin_ok.2 ⟨rfl, hta, htb⟩, rfl⟩
        | mul_mul h1 h2 =>
          obtain ⟨a, ha, hta⟩ := (hl.1 _).1 h1
          obtain ⟨b, hb, htb⟩ := (hr.1 _).1 h2
          exact ⟨.bin .times a b, by simp only [build, ha, hb]; exact mkBin_ok.2 ⟨rfl, .inl ⟨hta, htb⟩⟩,
            by simp [Mod.type, hta, htb]⟩
        | add_mul h1 h2 =>
          obtain ⟨a, ha, hta⟩ := (hl.1 _).1 h1
          obtain ⟨b, hb, htb⟩ := (hr.1 _).1 h2
          exact ⟨.bin .times a b, by simp only [build, ha, hb]; exact mkBin_ok.2 ⟨rfl, .inr (.inl ⟨hta, htb⟩)⟩,
            by simp [Mod.type, hta, htb]⟩
        | mul_add h1 h2 =>
          obtain ⟨a, ha, hta⟩ := (hl.1 _).1 h1
          obtain ⟨b, hb, htb⟩ := (hr.1 _).1 h2
          exact ⟨.bin .times a b, by simp only [build, ha, hb]; exact mkBin_ok.2 ⟨rfl, .inr (.inr ⟨hta, htb⟩)⟩,
            by simp [Mod.type, hta, htb]⟩
      · rintro ⟨m, hm, rfl⟩
        simp only [build] at hm
        cases ha : build sup l with
        | error e => rw [ha] at hm; cases hm
        | ok a =>
          cases hb : build sup r with
          | error e => rw [ha, hb] at hm; cases hm
          | ok b =>
            rw [ha, hb] at hm
            obtain ⟨rfl, ht⟩ := mkBin_ok.1 hm
            have hla := (hl.1 a.type).2 ⟨a, ha, rfl⟩
            have hrb := (hr.1 b.type).2 ⟨b, hb, rfl⟩
            cases op with
            | plus => obtain ⟨h1, h2⟩ := ht; rw [h1] at hla; rw [h2] at hrb; exact .add_add hla hrb
            | times =>
              rcases ht with ⟨h1, h2⟩ | ⟨h1, h2⟩ | ⟨h1, h2⟩ <;> rw [h1] at hla <;> rw [h2] at hrb
              · simpa [Mod.type, h1, h2] using HasType.mul_mul hla hrb
              · simpa [Mod.type, h1, h2] using HasType.add_mul hla hrb
              · simpa [Mod.type, h1, h2] using HasType.mul_add hla hrb
    · intro err h
      simp only [build] at h
      cases ha : build sup l with
      | error e => rw [ha] at h; cases h; exact hl.2 _ ha
      | ok a =>
        cases hb : build sup r with
        | error e => rw [ha, hb] at h; cases h; exact hr.2 _ hb
        | ok b => rw [ha, hb] at h; exact mkBin_err h
  | call id m hm =>
    constructor
    · intro t
      constructor
      · intro h
        cases h with
        | conv h1 h2 =>
          obtain ⟨a, ha, rfl⟩ := (hm.1 _).1 h1
          exact ⟨.convolved id a, by simp [build, ha, mkConv, h2], rfl⟩
      · rintro ⟨x, hx, rfl⟩
        simp only [build] at hx
        cases ha : build sup m with
        | error e => rw [ha] at hx; cases hx
        | ok a =>
          rw [ha] at hx
          simp only [mkConv] at hx
          split_ifs at hx with h
          cases hx
          exact .conv ((hm.1 _).2 ⟨a, ha, rfl⟩) h
    · intro err h
      simp only [build] at h
      cases ha : build sup m with
      | error e => rw [ha] at h; cases h; exact hm.2 _ ha
      | ok a =>
        rw [ha] at h
        simp only [mkConv] at h
        split_ifs at h
        cases h; rfl

example : HasType (fun _ _ => true) (.bin .times (.comp 0 .mul) (.bin .plus (.comp 1 .add) (.call 2 (.comp 3 .add)))) .add :=
  .mul_add (.comp _ _) (.add_add (.comp _ _) (.conv (.comp _ _) rfl))

example (sup) (t) : ¬ HasType sup (.bin .plus (.comp 0 .mul) (.comp 1 .mul)) t := by
  intro h; cases h with | add_add h1 _ => cases h1

section
variable {G ι K P : Type} [CommRing K]

/-- Value of a model object, forgetting the evaluation plumbing. -/
def Mod.den (lib : Lib G ι K P) (par : Nat → P) : Mod → G → ι → K
  | .comp id _, g => lib.fn id g (par id)
  | .bin .plus l r, g => l.den lib par g + r.den lib par g
  | .bin .times l r, g => l.den lib par g * r.den lib par g
  | .convolved id m, g => lib.conv id (m.den lib par) g (par id)

theorem mem_appendNew {x : Nat} {a b : List Nat} : x ∈ appendNew a b ↔ x ∈ a ∨ x ∈ b := by
  induction b generalizing a with
  | nil => simp [appendNew]
  | cons c cs ih =>
    rw [appendNew, ih]
    by_cases h : c ∈ a
    · simp only [h, if_true, List.mem_cons]
      constructor
      · rintro (h1 | h1) <;> simp [h1]
      · rintro (h1 | rfl | h1)
        · exact .inl h1
        · exact .inl h
        · exact .inr h1
    · simp [h, or_assoc]

theorem eval_den (lib : Lib G ι K P) (par : Nat → P) (params : Nat → Option P) (m : Mod)
    (h : ∀ id ∈ m.comps, params id = some (par id)) (g : G) :
    m.eval lib params g = .ok (m.den lib par g) := by
  induction m generalizing g with
  | comp id ty => simp [Mod.eval, h id (by simp [Mod.comps]), Mod.den]
  | bin op l r hl hr =>
    have h1 := hl (fun id hid => h id (mem_appendNew.2 (.inl hid)))
    have h2 := hr (fun id hid => h id (mem_appendNew.2 (.inr hid)))
    cases op <;> simp [Mod.eval, h1, h2, Mod.den]
  | convolved id m hm =>
    have hid : params id = some (par id) := h id (by simp only [Mod.comps]; split_ifs with hc <;> simp [hc])
    have h1 := hm (fun x hx => h x (by simp only [Mod.comps]; split_ifs <;> simp [hx]))
    simp [Mod.eval, h1, hid, Mod.den]

theorem compiled_den (lib : Lib G ι K P) (par : Nat → P) (m : Mod) (g : G) :
    m.compiled lib par g = .ok (m.den lib par g) :=
  eval_den lib par _ m (fun id hid => by simp [hid]) g

theorem build_den {sup : Nat → MType → Bool} (lib : Lib G ι K P) (par : Nat → P) {e : Expr} {m : Mod}
    (h : build sup e = .ok m) : m.den lib par = meaning lib par e := by
  induction e generalizing m with
  | comp id ty => cases h; rfl
  | bin op l r hl hr =>
    simp only [build] at h
    cases ha : build sup l with
    | error e => rw [ha] at h; cases h
    | ok a =>
      cases hb : build sup r with
      | error e => rw [ha, hb] at h; cases h
      | ok b =>
        rw [ha, hb] at h
        obtain ⟨rfl, _⟩ := mkBin_ok.1 h
        funext g i
        have h1 := hl ha
        have h2 := hr hb
        cases op <;> simp [Mod.den, meaning, h1, h2]
  | call id m' hm =>
    simp only [build] at h
    cases ha : build sup m' with
    | error e => rw [ha] at h; cases h
    | ok a =>
      rw [ha] at h
      simp only [mkConv] at h
      split_ifs at h
      cases h
      funext g i
      simp only [Mod.den, meaning, hm ha]

/-- The compiled model of an accepted expression evaluates, without failing, to the arithmetic of the
expression on the component values in every energy bin — whatever components occur repeatedly. -/
theorem C31_value {sup : Nat → MType → Bool} (lib : Lib G ι K P) (par : Nat → P) {e : Expr} {m : Mod}
    (h : build sup e = .ok m) (g : G) : m.compiled lib par g = .ok (meaning lib par e g) := by
  rw [compiled_den, build_den lib par h]

/-- Each component contributes its parameters once, whatever its number of occurrences. -/
theorem C31_comps_once (m : Mod) : m.comps.Nodup := by
  have key : ∀ (b a : List Nat), a.Nodup → (appendNew a b).Nodup := by
    intro b
    induction b with
    | nil => intro a ha; exact ha
    | cons c cs ih =>
      intro a ha
      rw [appendNew]
      apply ih
      split_ifs with hc
      · exact ha
      · exact List.nodup_append.2 ⟨ha, by simp, by rintro x hx y hy rfl; simp at hy; exact hc (hy ▸ hx)⟩
  induction m with
  | comp => simp [Mod.comps]
  | bin _ l r hl _ => exact key _ _ hl
  | convolved id m hm =>
    simp only [Mod.comps]
    split_ifs with hc
    · exact hm
    · exact List.nodup_append.2 ⟨hm, by simp, by rintro x hx y hy rfl; simp at hy; exact hc (hy ▸ hx)⟩

/-! ## C32 -/

/-- Objects the library can create. -/
def Mod.Built (sup : Nat → MType → Bool) (m : Mod) : Prop := ∃ e, build sup e = .ok m

theorem built_bin {sup : Nat → MType → Bool} {op l r} (h : Mod.Built sup (.bin op l r)) :
    Mod.Built sup l ∧ Mod.Built sup r ∧ mkBin op l r = .ok (.bin op l r) := by
  obtain ⟨e, he⟩ := h
  cases e with
  | comp => cases he
  | bin op' a b =>
    simp only [build] at he
    cases ha : build sup a with
    | error e => rw [ha] at he; cases he
    | ok x =>
      cases hb : build sup b with
      | error e => rw [ha, hb] at he; cases he
      | ok y =>
        rw [ha, hb] at he
        have := (mkBin_ok.1 he).1
        cases this
        exact ⟨⟨a, ha⟩, ⟨b, hb⟩, he⟩
  | call id a =>
    simp only [build] at he
    cases ha : build sup a with
    | error e => rw [ha] at he; cases he
    | ok x =>
      rw [ha] at he
      simp only [mkConv] at he
      split_ifs at he
      cases he

theorem built_conv {sup : Nat → MType → Bool} {id m} (h : Mod.Built sup (.convolved id m)) :
    Mod.Built sup m ∧ sup id m.type = true := by
  obtain ⟨e, he⟩ := h
  cases e with
  | comp => cases he
  | bin op' a b =>
    simp only [build] at he
    cases ha : build sup a with
    | error e => rw [ha] at he; cases he
    | ok x =>
      cases hb : build sup b with
      | error e => rw [ha, hb] at he; cases he
      | ok y =>
        rw [ha, hb] at he
        have := (mkBin_ok.1 he).1
        cases this
  | call id a =>
    simp only [build] at he
    cases ha : build sup a with
    | error e => rw [ha] at he; cases he
    | ok x =>
      rw [ha] at he
      simp only [mkConv] at he
      split_ifs at he with hs
      cases he
      exact ⟨⟨a, ha⟩, hs⟩

theorem built_mkBin {sup : Nat → MType → Bool} {op l r} (hl : Mod.Built sup l) (hr : Mod.Built sup r)
    (h : mkBin op l r = .ok (.bin op l r)) : Mod.Built sup (.bin op l r) := by
  obtain ⟨a, ha⟩ := hl
  obtain ⟨b, hb⟩ := hr
  exact ⟨.bin op a b, by simp only [build, ha, hb, h]⟩

theorem built_mkConv {sup : Nat → MType → Bool} {id m} (hm : Mod.Built sup m) (h : sup id m.type = true) :
    Mod.Built sup (.convolved id m) := by
  obtain ⟨a, ha⟩ := hm
  exact ⟨.call id a, by simp [build, ha, mkConv, h]⟩

/-- The parts of a model are legal additive models, and an additive model has at least one part. -/
theorem C32_parts_are_additive (sup : Nat → MType → Bool) (m : Mod) (hb : m.Built sup) :
    (∀ c ∈ m.additiveComps, c.type = .add ∧ c.Built sup) ∧ (m.type = .add → m.additiveComps ≠ []) := by
  induction m with
  | comp id ty =>
    simp only [Mod.additiveComps, Mod.type]
    split_ifs with h
    · subst h; simp [Mod.type, hb]
    · simp [h]
  | bin op l r hl hr =>
    obtain ⟨bl, br, hmk⟩ := built_bin hb
    have ihl := hl bl
    have ihr := hr br
    have hty := (mkBin_ok.1 hmk).2
    cases op with
    | plus =>
      simp only [Mod.additiveComps, List.mem_append]
      refine ⟨?_, fun _ => ?_⟩
      · rintro c (h | h)
        · exact ihl.1 c h
        · exact ihr.1 c h
      · simp [ihl.2 hty.1]
    | times =>
      simp only [Mod.additiveComps]
      split_ifs with h1 h2 h3 h4
      · exact ⟨by simp, fun h => absurd h h1⟩
      · have hrt : r.type = .mul := by rcases hty with h | h | h <;> simp_all
        refine ⟨?_, fun _ => by simp; exact ihl.2 h2⟩
        intro c hc
        obtain ⟨c', hc', rfl⟩ := List.mem_map.1 hc
        obtain ⟨t1, b1⟩ := ihl.1 c' hc'
        exact ⟨by simp [Mod.type, t1], built_mkBin b1 br (mkBin_ok.2 ⟨rfl, .inr (.inl ⟨t1, hrt⟩)⟩)⟩
      · push Not at h1
        exact ⟨by simp [h1, hb], by simp⟩
      · have hlt : l.type = .mul ∧ r.type = .add := by
          push Not at h1
          rcases hty with h | h | h <;> simp_all [Mod.type]
        refine ⟨?_, fun _ => by simp; exact ihr.2 hlt.2⟩
        intro c hc
        obtain ⟨c', hc', rfl⟩ := List.mem_map.1 hc
        obtain ⟨t1, b1⟩ := ihr.1 c' hc'
        exact ⟨by simp [Mod.type, t1], built_mkBin bl b1 (mkBin_ok.2 ⟨rfl, .inr (.inr ⟨hlt.1, t1⟩)⟩)⟩
      · push Not at h1
        exact ⟨by simp [h1, hb], by simp⟩
  | convolved id m hm =>
    obtain ⟨bm, hs⟩ := built_conv hb
    have ih := hm bm
    simp only [Mod.additiveComps, Mod.type]
    split_ifs with h1 h2
    · exact ⟨by simp, fun h => absurd h h1⟩
    · push Not at h1
      refine ⟨?_, fun _ => by simp; exact ih.2 h1⟩
      intro c hc
      obtain ⟨c', hc', rfl⟩ := List.mem_map.1 hc
      obtain ⟨t1, b1⟩ := ih.1 c' hc'
      exact ⟨by simp [Mod.type, t1], built_mkConv b1 (by rw [t1, ← h1]; exact hs)⟩
    · push Not at h1
      exact ⟨by simp [Mod.type, h1, hb], by simp⟩

theorem conv_list_sum (lib : Lib G ι K P) {id : Nat} (ha : Additive lib id) (fs : List (G → ι → K)) (hne : fs ≠ [])
    (g : G) (p : P) : lib.conv id (fs.sum) g p = (fs.map fun f => lib.conv id f g p).sum := by
  induction fs with
  | nil => exact absurd rfl hne
  | cons f fs ih =>
    cases fs with
    | nil => simp
    | cons f' fs =>
      have e : (f :: f' :: fs).sum = f + (f' :: fs).sum := List.sum_cons
      have e2 : ((f :: f' :: fs).map fun f => lib.conv id f g p).sum
          = lib.conv id f g p + ((f' :: fs).map fun f => lib.conv id f g p).sum := by
        rw [List.map_cons, List.sum_cons]
      rw [e, e2, ← ih (by simp)]
      exact ha f _ g p

theorem den_sum (lib : Lib G ι K P) (par : Nat → P) {sup : Nat → MType → Bool} (m : Mod) (hb : m.Built sup)
    (ht : m.type = .add) (hc : ∀ id ∈ m.convIds, Additive lib id) :
    (m.additiveComps.map fun c => c.den lib par).sum = m.den lib par := by
  induction m with
  | comp id ty =>
    simp only [Mod.type] at ht
    simp [Mod.additiveComps, ht]
  | bin op l r hl hr =>
    obtain ⟨bl, br, hmk⟩ := built_bin hb
    have hty := (mkBin_ok.1 hmk).2
    have hcl : ∀ id ∈ l.convIds, Additive lib id := fun id h => hc id (by simp [Mod.convIds, h])
    have hcr : ∀ id ∈ r.convIds, Additive lib id := fun id h => hc id (by simp [Mod.convIds, h])
    cases op with
    | plus =>
      simp only [Mod.additiveComps, List.map_append, List.sum_append, hl bl hty.1 hcl, hr br hty.2 hcr]
      rfl
    | times =>
      simp only [Mod.additiveComps, ht, ne_eq, not_true_eq_false, if_false]
      split_ifs with h2 h3 h4
      · rw [List.map_map]
        have : ((fun c => c.den lib par) ∘ fun c => Mod.bin .times c r) = fun c => c.den lib par * r.den lib par := by
          funext c; rfl
        rw [this, List.sum_map_mul_right, hl bl h2 hcl]
        rfl
      · simp
      · have hrt : r.type = .add := by rcases hty with h | h | h <;> simp_all [Mod.type]
        rw [List.map_map]
        have : ((fun c => c.den lib par) ∘ fun c => Mod.bin .times l c) = fun c => l.den lib par * c.den lib par := by
          funext c; rfl
        rw [this, List.sum_map_mul_left, hr br hrt hcr]
        rfl
      · simp
  | convolved id m hm =>
    obtain ⟨bm, _⟩ := built_conv hb
    have hm' := hm bm ht (fun x hx => hc x (by simp [Mod.convIds, hx]))
    have ht' : m.type = .add := ht
    simp only [Mod.additiveComps, ht', ne_eq, not_true_eq_false, if_false]
    split_ifs with h2
    · rw [List.map_map]
      funext g
      have hcs := conv_list_sum lib (hc id (by simp [Mod.convIds])) (m.additiveComps.map fun c => c.den lib par)
        (by intro h; simp only [List.map_eq_nil_iff] at h; simp [h] at h2) g (par id)
      rw [hm'] at hcs
      show _ = lib.conv id (m.den lib par) g (par id)
      rw [hcs, List.map_map]
      have : ∀ l : List Mod, ((l.map ((fun c : Mod => c.den lib par) ∘ fun c => Mod.convolved id c)).sum) g
          = (l.map ((fun f => lib.conv id f g (par id)) ∘ fun c : Mod => c.den lib par)).sum := by
        intro l
        induction l with
        | nil => rfl
        | cons a l ih =>
          simp only [List.map_cons, List.sum_cons, ← ih]
          rfl
      exact this _
    · simp

theorem dictSet_append {V : Type} {d : List (String × V)} {k : String} {v : V} (h : k ∉ d.map Prod.fst) :
    dictSet d k v = d ++ [(k, v)] := by
  induction d with
  | nil => rfl
  | cons a d ih =>
    obtain ⟨k', v'⟩ := a
    simp only [List.map_cons, List.mem_cons, not_or] at h
    simp only [dictSet, List.cons_append]
    rw [if_neg (fun e => h.1 e.symm), ih h.2]

theorem dictOfZip_nodup {V : Type} {ls : List String} {vs : List V} (hl : ls.length = vs.length) (hn : ls.Nodup) :
    dictOfZip ls vs = ls.zip vs := by
  have key : ∀ (ls : List String) (vs : List V) (d : List (String × V)), ls.length = vs.length →
      (d.map Prod.fst ++ ls).Nodup → (ls.zip vs).foldl (fun d q => dictSet d q.1 q.2) d = d ++ ls.zip vs := by
    intro ls
    induction ls with
    | nil => intro vs d _ _; simp
    | cons k ls ih =>
      intro vs d hl hn
      cases vs with
      | nil => simp at hl
      | cons v vs =>
        simp only [List.zip_cons_cons, List.foldl_cons]
        have hk : k ∉ d.map Prod.fst := fun hk => by
          rw [List.nodup_append] at hn
          exact hn.2.2 k hk k (by simp) rfl
        rw [dictSet_append hk, ih vs _ (by simpa using hl) (by simpa using hn)]
        simp
  exact key ls vs [] hl (by simpa using hn)

theorem evalAll_ok (lib : Lib G ι K P) (par : Nat → P) (g : G) (ms : List Mod) :
    evalAll lib par g ms = .ok (ms.map fun m => m.den lib par g) := by
  induction ms with
  | nil => rfl
  | cons m ms ih => simp [evalAll, compiled_den, ih]

/-- Evaluating with `comps=True` gives one entry per additive part, and the entries add up to the
total model in every energy bin — if the convolutions are additive and the parts have different
labels. (Missing: repeated labels, see `C32_repeated_refuted`; flux-normalising convolutions, see
`C32_flux_convolution_refuted`.) -/
theorem C32_parts_sum_partial (lib : Lib G ι K P) (par : Nat → P) (name : Nat → String)
    {sup : Nat → MType → Bool} {e : Expr} {m : Mod} (hb : build sup e = .ok m) (ht : m.type = .add)
    (hc : ∀ id ∈ m.convIds, Additive lib id) (hn : (m.additiveComps.map (Mod.latex name)).Nodup)
    (h2 : 2 ≤ m.additiveComps.length) (g : G) :
    ∃ d, m.compsEval lib name par g = some (.ok d) ∧ d.length = m.additiveComps.length ∧
      ∀ i, (d.map fun q => q.2 i).sum = meaning lib par e g i := by
  refine ⟨(m.additiveComps.map (Mod.latex name)).zip (m.additiveComps.map fun c => c.den lib par g), ?_, ?_, ?_⟩
  · rw [Mod.compsEval, if_neg (by omega), evalAll_ok]
    simp only
    rw [dictOfZip_nodup (by simp) hn]
  · simp
  · intro i
    rw [← build_den lib par hb, ← den_sum lib par m ⟨e, hb⟩ ht hc]
    generalize m.additiveComps = cs
    induction cs with
    | nil => simp
    | cons c cs ih =>
      simp only [List.map_cons, List.zip_cons_cons, List.sum_cons, ih]
      rfl

/-- Number of additive components the user wrote, with repetitions. -/
def Expr.nAdditive : Expr → Nat
  | .comp _ ty => if ty = .add then 1 else 0
  | .bin _ l r => l.nAdditive + r.nAdditive
  | .call _ m => m.nAdditive

theorem additiveComps_length {sup : Nat → MType → Bool} (e : Expr) :
    ∀ m, build sup e = .ok m → m.additiveComps.length = e.nAdditive ∧ (m.type ≠ .add → e.nAdditive = 0) ∧
      (m.type = .add → 1 ≤ e.nAdditive) := by
  induction e with
  | comp id ty =>
    intro m h
    cases h
    by_cases ht : ty = .add <;> simp [Mod.additiveComps, Expr.nAdditive, Mod.type, ht]
  | bin op l r hl hr =>
    intro m h
    simp only [build] at h
    split at h
    · cases h
    · rename_i a ha
      split at h
      · cases h
      · rename_i b hb
        obtain ⟨rfl, ht⟩ := mkBin_ok.1 h
        obtain ⟨l1, l2, l3⟩ := hl a ha
        obtain ⟨r1, r2, r3⟩ := hr b hb
        cases op with
        | plus =>
          simp only [Mod.additiveComps, List.length_append, Expr.nAdditive, l1, r1, Mod.type]
          exact ⟨trivial, by simp, fun _ => by have := l3 ht.1; omega⟩
        | times =>
          simp only [Mod.additiveComps, Expr.nAdditive, Mod.type]
          rcases ht with ⟨h1, h2⟩ | ⟨h1, h2⟩ | ⟨h1, h2⟩
          · simp [h1, h2, l2 (by simp [h1]), r2 (by simp [h2])]
          · have := l3 h1
            have := r2 (by simp [h2])
            simp only [h1, h2]
            simp only [reduceCtorEq, or_false, if_true, ne_eq, not_true_eq_false, if_false]
            refine ⟨?_, by simp, by omega⟩
            split_ifs <;> simp <;> omega
          · have := r3 h2
            have := l2 (by simp [h1])
            simp only [h1, h2]
            simp only [reduceCtorEq, false_or, if_true, ne_eq, not_true_eq_false, if_false]
            refine ⟨?_, by simp, by omega⟩
            split_ifs <;> simp <;> omega
  | call id e ih =>
    intro m h
    simp only [build] at h
    split at h
    · cases h
    · rename_i a ha
      simp only [mkConv] at h
      split at h
      · cases h
        obtain ⟨l1, l2, l3⟩ := ih a ha
        simp only [Mod.additiveComps, Expr.nAdditive, Mod.type]
        by_cases ht : a.type = .add
        · have := l3 ht
          simp only [ht, ne_eq, not_true_eq_false, if_false]
          refine ⟨?_, by simp, by simpa using this⟩
          split_ifs <;> simp <;> omega
        · simp [ht, l2 ht]
      · cases h

/-- **C32.** The breakdown has one part per additive component of the expression, and is refused
exactly when the model has a single additive component (or none). -/
theorem C32_number_of_parts (lib : Lib G ι K P) (par : Nat → P) (name : Nat → String)
    {sup : Nat → MType → Bool} {e : Expr} {m : Mod} (hb : build sup e = .ok m) (g : G) :
    m.additiveComps.length = e.nAdditive ∧
    (m.compsEval lib name par g = none ↔ e.nAdditive ≤ 1) := by
  have h := (additiveComps_length e m hb).1
  refine ⟨h, ?_⟩
  rw [Mod.compsEval, h]
  split_ifs with h1 <;> simp [h1]

end

/-! ### Counterexamples -/

/-- A one-bin library over ℚ: components have the constant value given by their parameter; every
convolution rescales the input to the flux given by its parameter (as `PhFlux` does). -/
def demoLib : Lib Unit Unit ℚ ℚ where
  fn _ _ p _ := p
  conv _ f g p i := p / f g i * f g i

def demoName (id : Nat) : String := if id = 0 then "A" else if id = 1 then "B" else "F"

/-- For `a + a` the reported parts are a single entry with value `a`, whatever the value, because the
dictionary of parts is keyed by the label. -/
theorem C32_repeated_refuted (p : ℚ) (hp : p ≠ 0) :
    ∃ e m d, build (fun _ _ => true) e = .ok m ∧ m.type = .add ∧ 2 ≤ m.additiveComps.length ∧
      m.convIds = [] ∧ m.compsEval demoLib demoName (fun _ => p) () = some (.ok d) ∧
      (d.map fun q => q.2 ()).sum ≠ meaning demoLib (fun _ => p) e () () := by
  refine ⟨.bin .plus (.comp 0 .add) (.comp 0 .add), _, _, rfl, rfl, by decide, rfl, rfl, ?_⟩
  simp [dictOfZip, dictSet, Mod.additiveComps, Mod.latex, demoName, meaning, demoLib]
  exact hp

/-- For a flux-normalising convolution of a sum, each part is normalised to the full flux: the parts
of `F(A + B)` add up to twice the flux of the model. -/
theorem C32_flux_convolution_refuted (a b f : ℚ) (ha : a ≠ 0) (hb : b ≠ 0) (hab : a + b ≠ 0) :
    ∃ e m d, build (fun _ _ => true) e = .ok m ∧ m.type = .add ∧
      m.compsEval demoLib demoName (fun id => if id = 0 then a else if id = 1 then b else f) () = some (.ok d) ∧
      (d.map fun q => q.2 ()).sum = 2 * f ∧
      meaning demoLib (fun id => if id = 0 then a else if id = 1 then b else f) e () () = f := by
  refine ⟨.call 2 (.bin .plus (.comp 0 .add) (.comp 1 .add)), _,
    [("{F}\\left(A\\right)", fun _ => f / a * a), ("{F}\\left(B\\right)", fun _ => f / b * b)], rfl, rfl, ?_, ?_, ?_⟩
  · rfl
  · simp [div_mul_cancel₀ f ha, div_mul_cancel₀ f hb]; ring
  · simp [meaning, demoLib]
    exact div_mul_cancel₀ f hab

/-- Non-vacuity of `C32_parts_sum_partial`: `m * (A + B)` has the parts `m * A` and `m * B`. -/
example : ∃ d, (Mod.bin .times (.comp 3 .mul) (.bin .plus (.comp 0 .add) (.comp 1 .add))).compsEval demoLib demoName
    (fun id => (id : ℚ) + 1) () = some (.ok d) ∧ d.length = 2 ∧
    ∀ i, (d.map fun q => q.2 i).sum = meaning demoLib (fun id => (id : ℚ) + 1)
      (.bin .times (.comp 3 .mul) (.bin .plus (.comp 0 .add) (.comp 1 .add))) () i :=
  C32_parts_sum_partial demoLib _ demoName (sup := fun _ _ => true) rfl rfl (by simp [Mod.convIds])
    (by decide +kernel) (by decide) ()

/-- `mul * (A + B)`, an expression that builds -/
example : ∃ m, build (fun _ _ => true) (.bin .times (.comp 3 .mul) (.bin .plus (.comp 0 .add) (.comp 1 .add))) = .ok m ∧ m.type = .add ∧ m.additiveComps ≠ [] ∧
    m.compiled demoLib (fun id => (id : ℚ) + 1) () = .ok (meaning demoLib (fun id => (id : ℚ) + 1) (.bin .times (.comp 3 .mul) (.bin .plus (.comp 0 .add) (.comp 1 .add))) ()) ∧
    m.additiveComps.length = 2 := by
  refine ⟨_, rfl, rfl, (C32_parts_are_additive (fun _ _ => true) _ ⟨.bin .times (.comp 3 .mul) (.bin .plus (.comp 0 .add) (.comp 1 .add)), rfl⟩).2 rfl, C31_value (sup := fun _ _ => true) demoLib _ rfl (), ?_⟩
  exact (C32_number_of_parts demoLib (fun id => (id : ℚ) + 1) demoName (sup := fun _ _ => true)
    (e := .bin .times (.comp 3 .mul) (.bin .plus (.comp 0 .add) (.comp 1 .add))) rfl ()).1

example := C32_repeated_refuted 3 (by norm_num)

end Elisa.Models.Algebra
