import Verif.Models.Label

/-!
# C29: the displayed name of a composite parameter denotes its value
-/

namespace Elisa.Models.Label

/-! ## Specification: reading a name with ordinary operator precedence -/

/-- What a reader understands: named quantities, the five operators and function calls. -/
inductive Read where
  | var (s : String)
  | bin (o : BinOp) (l r : Read)
  | call (f : String) (a : Read)
deriving Repr, DecidableEq

/-- Precedence levels: sums, products, powers, atoms. -/
inductive Level where
  | sum | prod | pow | atom
deriving DecidableEq, Repr

/-- The ordinary grammar of arithmetic: `+` and `-` associate to the left and bind weaker than `*`
and `/`, which associate to the left and bind weaker than `^`, which associates to the right; atoms
are names, parenthesised expressions and function calls. -/
inductive Reads : Level → List Tok → Read → Prop where
  | sumProd {ts e} : Reads .prod ts e → Reads .sum ts e
  | add {s t a b} : Reads .sum s a → Reads .prod t b → Reads .sum (s ++ .op .add :: t) (.bin .add a b)
  | sub {s t a b} : Reads .sum s a → Reads .prod t b → Reads .sum (s ++ .op .sub :: t) (.bin .sub a b)
  | prodPow {ts e} : Reads .pow ts e → Reads .prod ts e
  | mul {s t a b} : Reads .prod s a → Reads .pow t b → Reads .prod (s ++ .op .mul :: t) (.bin .mul a b)
  | div {s t a b} : Reads .prod s a → Reads .pow t b → Reads .prod (s ++ .op .div :: t) (.bin .div a b)
  | powAtom {ts e} : Reads .atom ts e → Reads .pow ts e
  | power {s t a b} : Reads .atom s a → Reads .pow t b → Reads .pow (s ++ .op .pow :: t) (.bin .pow a b)
  | var (x) : Reads .atom [.name x] (.var x)
  | paren {ts e} : Reads .sum ts e → Reads .atom (.lp :: ts ++ [.rp]) e
  | call (f) {ts e} : Reads .sum ts e → Reads .atom (.name f :: .lp :: ts ++ [.rp]) (.call f e)

section
variable {K : Type} [Add K] [Sub K] [Mul K] [Div K]

/-- The value a reader assigns to what was read, names standing for `env`. -/
def meaning (pw : K → K → K) (fn : String → K → K) (env : String → K) : Read → K
  | .var s => env s
  | .bin o l r => applyOp pw o (meaning pw fn env l) (meaning pw fn env r)
  | .call f a => fn f (meaning pw fn env a)

/-- Every name used in the label stands for the value of the parameter it names: leaf names for the
leaf values, names of composites (assigned to a model slot) for the values of these composites. -/
def Names (pw : K → K → K) (fn : String → K → K) (v : Nat → K) (leafName : Nat → String)
    (compName : Nat → Option String) (env : String → K) : PExpr → Prop
  | .leaf id => env (leafName id) = v id
  | .bin id o l r =>
    (∀ s, compName id = some s → env s = value pw fn v (.bin id o l r)) ∧
    Names pw fn v leafName compName env l ∧ Names pw fn v leafName compName env r
  | .call id f a =>
    (∀ s, compName id = some s → env s = value pw fn v (.call id f a)) ∧
    Names pw fn v leafName compName env a

/-! ## A deterministic evaluator of token lists (proof device for uniqueness of the reading) -/

/-- Pending operations of one parenthesis level, and the function to apply at its end. -/
structure Frame (K : Type) where
  addC : K → K
  mulC : K → K
  powC : K → K
  close : K → K

def Frame.fresh (c : K → K) : Frame K := ⟨id, id, id, c⟩
def Frame.flush (f : Frame K) (v : K) : K := f.addC (f.mulC (f.powC v))

/-- `none`: an operand is expected; `some v`: an operand has been read. -/
def run (pw : K → K → K) (fn : String → K → K) (env : String → K) :
    List (Frame K) → Frame K → Option K → List Tok → Option K
  | [], f, some v, [] => some (f.close (f.flush v))
  | _, _, _, [] => none
  | st, f, none, .name s :: .lp :: ts => run pw fn env (f :: st) (.fresh (fn s)) none ts
  | st, f, none, .name s :: ts => run pw fn env st f (some (env s)) ts
  | st, f, none, .lp :: ts => run pw fn env (f :: st) (.fresh id) none ts
  | g :: st, f, some v, .rp :: ts => run pw fn env st g (some (f.close (f.flush v))) ts
  | st, f, some v, .op .add :: ts =>
    run pw fn env st { f with addC := fun y => f.flush v + y, mulC := id, powC := id } none ts
  | st, f, some v, .op .sub :: ts =>
    run pw fn env st { f with addC := fun y => f.flush v - y, mulC := id, powC := id } none ts
  | st, f, some v, .op .mul :: ts =>
    run pw fn env st { f with mulC := fun y => f.mulC (f.powC v) * y, powC := id } none ts
  | st, f, some v, .op .div :: ts =>
    run pw fn env st { f with mulC := fun y => f.mulC (f.powC v) / y, powC := id } none ts
  | st, f, some v, .op .pow :: ts =>
    run pw fn env st { f with powC := fun y => f.powC (pw v y) } none ts
  | _, _, _, _ => none

/-- The continuation does not extend an expression of the level to the right. -/
def Stops : Level → List Tok → Prop
  | .atom, .lp :: _ => False
  | .pow, .op .pow :: _ => False
  | .pow, .lp :: _ => False
  | .prod, .op .pow :: _ => False
  | .prod, .lp :: _ => False
  | .sum, .op .pow :: _ => False
  | .sum, .op .mul :: _ => False
  | .sum, .op .div :: _ => False
  | .sum, .lp :: _ => False
  | _, _ => True

/-- The pending operations allowed at the start of an expression of the level. -/
def Starts : Level → Frame K → Prop
  | .atom, _ => True
  | .pow, _ => True
  | .prod, f => f.mulC = id ∧ f.powC = id
  | .sum, f => f.addC = id ∧ f.mulC = id ∧ f.powC = id

theorem Reads.ne_nil {l ts e} (h : Reads l ts e) : ts ≠ [] := by
  induction h <;> simp_all

theorem run_reads (pw : K → K → K) (fn : String → K → K) (env : String → K) {l ts e}
    (h : Reads l ts e) : ∀ (st : List (Frame K)) (f : Frame K) (rest : List Tok), Starts l f →
      Stops l rest →
      run pw fn env st f none (ts ++ rest) = run pw fn env st f (some (meaning pw fn env e)) rest := by
  induction h with
  | sumProd h ih =>
    intro st f rest hf hr
    refine ih st f rest hf.2 ?_
    revert hr
    rcases rest with _ | ⟨t, rest⟩ <;> try rcases t with _ | o <;> try cases o
    all_goals simp [Stops]
  | add h1 h2 ih1 ih2 =>
    intro st f rest hf hr
    rw [List.append_assoc, ih1 st f _ hf (by simp [Stops])]
    rw [List.cons_append, run]
    rw [ih2 _ _ _ ⟨rfl, rfl⟩ (by
      revert hr
      rcases rest with _ | ⟨t, rest⟩ <;> try rcases t with _ | o <;> try cases o
      all_goals simp [Stops])]
    obtain ⟨a1, a2, a3⟩ := hf
    rcases rest with _ | ⟨t, rest⟩
    · cases st <;> simp [run, Frame.flush, meaning, applyOp, a1, a2, a3]
    · rcases t with _ | o
      · cases st <;> simp [run]
      · cases o <;> simp_all [run, Stops, Frame.flush, meaning, applyOp]
      · simp_all [Stops]
      · cases st <;> simp [run, Frame.flush, meaning, applyOp, a1, a2, a3]
  | sub h1 h2 ih1 ih2 =>
    intro st f rest hf hr
    rw [List.append_assoc, ih1 st f _ hf (by simp [Stops])]
    rw [List.cons_append, run]
    rw [ih2 _ _ _ ⟨rfl, rfl⟩ (by
      revert hr
      rcases rest with _ | ⟨t, rest⟩ <;> try rcases t with _ | o <;> try cases o
      all_goals simp [Stops])]
    obtain ⟨a1, a2, a3⟩ := hf
    rcases rest with _ | ⟨t, rest⟩
    · cases st <;> simp [run, Frame.flush, meaning, applyOp, a1, a2, a3]
    · rcases t with _ | o
      · cases st <;> simp [run]
      · cases o <;> simp_all [run, Stops, Frame.flush, meaning, applyOp]
      · simp_all [Stops]
      · cases st <;> simp [run, Frame.flush, meaning, applyOp, a1, a2, a3]
  | prodPow h ih =>
    intro st f rest hf hr
    refine ih st f rest trivial ?_
    revert hr
    rcases rest with _ | ⟨t, rest⟩ <;> try rcases t with _ | o <;> try cases o
    all_goals simp [Stops]
  | mul h1 h2 ih1 ih2 =>
    intro st f rest hf hr
    rw [List.append_assoc, ih1 st f _ hf (by simp [Stops])]
    rw [List.cons_append, run]
    rw [ih2 _ _ _ trivial (by
      revert hr
      rcases rest with _ | ⟨t, rest⟩ <;> try rcases t with _ | o <;> try cases o
      all_goals simp [Stops])]
    obtain ⟨a2, a3⟩ := hf
    rcases rest with _ | ⟨t, rest⟩
    · cases st <;> simp [run, Frame.flush, meaning, applyOp, a2, a3]
    · rcases t with _ | o
      · cases st <;> simp [run]
      · cases o <;> simp_all [run, Stops, Frame.flush, meaning, applyOp]
      · simp_all [Stops]
      · cases st <;> simp [run, Frame.flush, meaning, applyOp, a2, a3]
  | div h1 h2 ih1 ih2 =>
    intro st f rest hf hr
    rw [List.append_assoc, ih1 st f _ hf (by simp [Stops])]
    rw [List.cons_append, run]
    rw [ih2 _ _ _ trivial (by
      revert hr
      rcases rest with _ | ⟨t, rest⟩ <;> try rcases t with _ | o <;> try cases o
      all_goals simp [Stops])]
    obtain ⟨a2, a3⟩ := hf
    rcases rest with _ | ⟨t, rest⟩
    · cases st <;> simp [run, Frame.flush, meaning, applyOp, a2, a3]
    · rcases t with _ | o
      · cases st <;> simp [run]
      · cases o <;> simp_all [run, Stops, Frame.flush, meaning, applyOp]
      · simp_all [Stops]
      · cases st <;> simp [run, Frame.flush, meaning, applyOp, a2, a3]
  | powAtom h ih =>
    intro st f rest hf hr
    refine ih st f rest trivial ?_
    revert hr
    rcases rest with _ | ⟨t, rest⟩ <;> try rcases t with _ | o <;> try cases o
    all_goals simp [Stops]
  | power h1 h2 ih1 ih2 =>
    intro st f rest hf hr
    rw [List.append_assoc, ih1 st f _ trivial (by simp [Stops])]
    rw [List.cons_append, run]
    rw [ih2 _ _ _ trivial hr]
    rcases rest with _ | ⟨t, rest⟩
    · cases st <;> simp [run, Frame.flush, meaning, applyOp]
    · rcases t with _ | o
      · cases st <;> simp [run]
      · cases o <;> simp_all [run, Stops, Frame.flush, meaning, applyOp]
      · simp_all [Stops]
      · cases st <;> simp [run, Frame.flush, meaning, applyOp]
  | var x =>
    intro st f rest hf hr
    rcases rest with _ | ⟨t, rest⟩
    · simp [run, meaning]
    · cases t <;> simp_all [run, meaning, Stops]
  | paren h ih =>
    intro st f rest hf hr
    rw [List.cons_append, List.cons_append, List.append_assoc]
    have := ih (f :: st) (.fresh id) ([.rp] ++ rest) ⟨rfl, rfl, rfl⟩ (by simp [Stops])
    simp only [run]
    rw [this]
    simp [run, Frame.fresh, Frame.flush]
  | call g h ih =>
    intro st f rest hf hr
    simp only [List.cons_append, List.append_assoc]
    have := ih (f :: st) (.fresh (fn g)) (.rp :: rest) ⟨rfl, rfl, rfl⟩ (by simp [Stops])
    simp only [run, List.nil_append]
    rw [this]
    simp [run, Frame.fresh, Frame.flush, meaning]

/-- Two readings of the same tokens have the same value. -/
theorem reads_value_unique (pw : K → K → K) (fn : String → K → K) (env : String → K) {ts e e'}
    (h : Reads .sum ts e) (h' : Reads .sum ts e') : meaning pw fn env e = meaning pw fn env e' := by
  have a := run_reads pw fn env h [] (.fresh id) [] ⟨rfl, rfl, rfl⟩ (by simp [Stops])
  have b := run_reads pw fn env h' [] (.fresh id) [] ⟨rfl, rfl, rfl⟩ (by simp [Stops])
  rw [a] at b
  simpa [run, Frame.fresh, Frame.flush] using b

end

section
variable {K : Type} [Field K]

/-! ## Building a reading of the printed label -/

theorem sum_append (pw : K → K → K) (fn : String → K → K) (env : String → K) {l s t a b}
    (hs : Reads .sum s a) (ht : Reads l t b) (hl : l = .sum) :
    ∃ e, Reads .sum (s ++ .op .add :: t) e ∧
      meaning pw fn env e = meaning pw fn env a + meaning pw fn env b := by
  induction ht with
  | sumProd h _ => exact ⟨_, .add hs h, rfl⟩
  | add h1 h2 ih1 ih2 =>
    obtain ⟨e, he, hv⟩ := ih1 rfl
    refine ⟨_, (by simpa using Reads.add he h2), ?_⟩
    simp [meaning, applyOp, hv]; ring
  | sub h1 h2 ih1 ih2 =>
    obtain ⟨e, he, hv⟩ := ih1 rfl
    refine ⟨_, (by simpa using Reads.sub he h2), ?_⟩
    simp [meaning, applyOp, hv]; ring
  | _ => cases hl

theorem prod_append (pw : K → K → K) (fn : String → K → K) (env : String → K) {l s t a b}
    (hs : Reads .prod s a) (ht : Reads l t b) (hl : l = .prod) :
    ∃ e, Reads .prod (s ++ .op .mul :: t) e ∧
      meaning pw fn env e = meaning pw fn env a * meaning pw fn env b := by
  induction ht with
  | prodPow h _ => exact ⟨_, .mul hs h, rfl⟩
  | mul h1 h2 ih1 ih2 =>
    obtain ⟨e, he, hv⟩ := ih1 rfl
    refine ⟨_, (by simpa using Reads.mul he h2), ?_⟩
    simp [meaning, applyOp, hv]; ring
  | div h1 h2 ih1 ih2 =>
    obtain ⟨e, he, hv⟩ := ih1 rfl
    refine ⟨_, (by simpa using Reads.div he h2), ?_⟩
    simp [meaning, applyOp, hv]; ring
  | _ => cases hl

/-- A reading with the right value exists at the sum level, at the product level when the printer
omits parentheses in products, and at the atom level for leaves. -/
theorem label_reads (pw : K → K → K) (fn : String → K → K) (v : Nat → K) (leafName : Nat → String)
    (compName : Nat → Option String) (env : String → K) (p : PExpr)
    (hn : Names pw fn v leafName compName env p) :
    (∃ e, Reads .sum (label leafName compName p) e ∧ meaning pw fn env e = value pw fn v p) ∧
    (∃ e, Reads .prod (wrap p.needsParen (label leafName compName p)) e ∧
      meaning pw fn env e = value pw fn v p) ∧
    (∃ e, Reads .atom (wrap p.isComposite (label leafName compName p)) e ∧
      meaning pw fn env e = value pw fn v p) := by
  -- an atom can be read everywhere, and any sum can be parenthesised
  have lift : ∀ ts e, Reads .atom ts e → Reads .sum ts e := fun ts e h => .sumProd (.prodPow (.powAtom h))
  induction p with
  | leaf id =>
    have h : Reads .atom [.name (leafName id)] (.var (leafName id)) := .var _
    refine ⟨⟨_, lift _ _ h, hn⟩, ⟨_, .prodPow (.powAtom h), hn⟩, ⟨_, h, hn⟩⟩
  | call id f a ih =>
    obtain ⟨hc, ha⟩ := hn
    have main : ∃ e, Reads .atom (label leafName compName (.call id f a)) e ∧
        meaning pw fn env e = value pw fn v (.call id f a) := by
      simp only [label]
      cases hcn : compName id with
      | some s => exact ⟨_, .var s, hc s hcn⟩
      | none =>
        obtain ⟨_, _, e, he, hv⟩ := ih ha
        exact ⟨_, .call f (lift _ _ he), by simp [meaning, value, hv]⟩
    obtain ⟨e, he, hv⟩ := main
    exact ⟨⟨e, lift _ _ he, hv⟩, ⟨e, .prodPow (.powAtom (.paren (lift _ _ he))), hv⟩,
      ⟨e, .paren (lift _ _ he), hv⟩⟩
  | bin id op l r ihl ihr =>
    obtain ⟨hc, hl, hr⟩ := hn
    obtain ⟨⟨el, hel, vl⟩, ⟨pl, hpl, wl⟩, ⟨al, hal, xl⟩⟩ := ihl hl
    obtain ⟨⟨er, her, vr⟩, ⟨pr, hpr, wr⟩, ⟨ar, har, xr⟩⟩ := ihr hr
    have main : (∃ e, Reads .sum (label leafName compName (.bin id op l r)) e ∧
          meaning pw fn env e = value pw fn v (.bin id op l r)) ∧
        (PExpr.needsParen (.bin id op l r) = false →
          ∃ e, Reads .prod (label leafName compName (.bin id op l r)) e ∧
            meaning pw fn env e = value pw fn v (.bin id op l r)) := by
      simp only [label]
      cases hcn : compName id with
      | some s =>
        exact ⟨⟨_, lift _ _ (.var s), hc s hcn⟩, fun _ => ⟨_, .prodPow (.powAtom (.var s)), hc s hcn⟩⟩
      | none =>
        cases op with
        | add =>
          obtain ⟨e, he, hv⟩ := sum_append pw fn env hel her rfl
          exact ⟨⟨e, he, by rw [hv, vl, vr]; rfl⟩, fun h => by simp [PExpr.needsParen] at h⟩
        | sub =>
          exact ⟨⟨_, .sub hel hpr, by simp [meaning, applyOp, value, vl, wr]⟩,
            fun h => by simp [PExpr.needsParen] at h⟩
        | mul =>
          obtain ⟨e, he, hv⟩ := prod_append pw fn env hpl hpr rfl
          have hv' : meaning pw fn env e = value pw fn v (.bin id .mul l r) := by rw [hv, wl, wr]; rfl
          exact ⟨⟨e, .sumProd he, hv'⟩, fun _ => ⟨e, he, hv'⟩⟩
        | div =>
          have h : Reads .prod (wrap l.needsParen (label leafName compName l) ++ .op .div ::
              wrap true (label leafName compName r)) (.bin .div pl er) :=
            .div hpl (.powAtom (.paren her))
          have hv' : meaning pw fn env (.bin .div pl er) = value pw fn v (.bin id .div l r) := by
            simp [meaning, applyOp, value, wl, vr]
          exact ⟨⟨_, .sumProd h, hv'⟩, fun _ => ⟨_, h, hv'⟩⟩
        | pow =>
          have h : Reads .prod (wrap l.isComposite (label leafName compName l) ++ .op .pow ::
              wrap r.isComposite (label leafName compName r)) (.bin .pow al ar) :=
            .prodPow (.power hal (.powAtom har))
          have hv' : meaning pw fn env (.bin .pow al ar) = value pw fn v (.bin id .pow l r) := by
            simp [meaning, applyOp, value, xl, xr]
          exact ⟨⟨_, .sumProd h, hv'⟩, fun _ => ⟨_, h, hv'⟩⟩
    obtain ⟨⟨e, he, hv⟩, hp⟩ := main
    refine ⟨⟨e, he, hv⟩, ?_, ⟨e, .paren he, hv⟩⟩
    cases hnp : PExpr.needsParen (.bin id op l r) with
    | true => exact ⟨e, .prodPow (.powAtom (.paren he)), hv⟩
    | false => exact hp hnp

/-- **C29.** Reading the displayed name of a parameter with ordinary operator precedence: it can be
read, and every way of reading it denotes the value of the parameter — for every expression tree
built with the five operators and function calls, all leaf values, and any naming of leaves and of
sub-expressions that carry a name of their own, provided a name stands for the value of what it
names. -/
theorem C29_label_denotes_value (pw : K → K → K) (fn : String → K → K) (v : Nat → K)
    (leafName : Nat → String) (compName : Nat → Option String) (env : String → K) (p : PExpr)
    (hn : Names pw fn v leafName compName env p) :
    (∃ e, Reads .sum (label leafName compName p) e) ∧
    ∀ e, Reads .sum (label leafName compName p) e → meaning pw fn env e = value pw fn v p := by
  obtain ⟨e, he, hv⟩ := (label_reads pw fn v leafName compName env p hn).1
  exact ⟨⟨e, he⟩, fun e' he' => by rw [reads_value_unique pw fn env he' he, hv]⟩

/-- With pairwise distinct leaf names and no named sub-expressions, such an environment exists for
all leaf values. -/
theorem names_of_injective (pw : K → K → K) (fn : String → K → K) (v : Nat → K)
    (leafName : Nat → String) (hinj : Function.Injective leafName) (p : PExpr) :
    ∃ env, Names pw fn v leafName (fun _ => none) env p := by
  classical
  refine ⟨fun s => if h : ∃ i, leafName i = s then v h.choose else 0, ?_⟩
  induction p with
  | leaf id =>
    have h : ∃ i, leafName i = leafName id := ⟨id, rfl⟩
    simp only [Names, h, dif_pos]
    rw [hinj h.choose_spec]
  | bin id o l r ihl ihr => exact ⟨by simp, ihl, ihr⟩
  | call id f a ih => exact ⟨by simp, ih⟩

/-- A label with every kind of nesting: `x - (y + z) * y / (x) + (x^y)^(f((y - z)))`. -/
def exExpr : PExpr :=
  .bin 10 .add
    (.bin 11 .sub (.leaf 0)
      (.bin 12 .div (.bin 13 .mul (.bin 14 .add (.leaf 1) (.leaf 2)) (.leaf 1)) (.leaf 0)))
    (.bin 15 .pow (.bin 16 .pow (.leaf 0) (.leaf 1)) (.call 17 "f" (.bin 18 .sub (.leaf 1) (.leaf 2))))

def exName (i : Nat) : String := if i = 0 then "x" else if i = 1 then "y" else "z"

example : render (label exName (fun _ => none) exExpr) = "x - (y + z) * y / (x) + (x^y)^(f((y - z)))" := by
  decide +kernel

/-- Two different leaves sharing a name make the label meaningless: the hypothesis of C29 cannot be
met when their values differ. -/
example (pw : ℚ → ℚ → ℚ) (fn : String → ℚ → ℚ) :
    ¬ ∃ env, Names pw fn (fun i => (i : ℚ)) (fun _ => "a") (fun _ => none) env
      (.bin 5 .sub (.leaf 0) (.leaf 1)) := by
  rintro ⟨env, _, h0, h1⟩
  simp only [Names] at h0 h1
  rw [h0] at h1
  norm_num at h1

end

/-! ## From the text of the label back to its tokens -/

/-- Characters that cannot belong to a name. -/
def special (c : Char) : Bool :=
  c = ' ' || c = '+' || c = '-' || c = '*' || c = '/' || c = '^' || c = '(' || c = ')'

/-- A name collected so far. -/
def flushName : List Char → List Tok
  | [] => []
  | c :: cs => [.name (String.ofList (c :: cs))]

/-- The token of a special character (blanks have none). -/
def specialTok (c : Char) : List Tok :=
  if c = '+' then [.op .add] else if c = '-' then [.op .sub] else if c = '*' then [.op .mul]
  else if c = '/' then [.op .div] else if c = '^' then [.op .pow] else if c = '(' then [.lp]
  else if c = ')' then [.rp] else []

/-- Splitting a text into tokens: blanks, operators and parentheses end a name. -/
def tokenise (acc : List Char) : List Char → List Tok
  | [] => flushName acc
  | c :: cs => if special c then flushName acc ++ specialTok c ++ tokenise [] cs
    else tokenise (acc ++ [c]) cs

/-- A name that a reader can recognise: not empty, no blanks, operators or parentheses. -/
def PlainName (s : String) : Prop := s.toList ≠ [] ∧ ∀ c ∈ s.toList, special c = false

/-- All names printed in the label are plain. -/
def PlainNames (leafName : Nat → String) (compName : Nat → Option String) : PExpr → Prop
  | .leaf id => PlainName (leafName id)
  | .bin id _ l r => (∀ s, compName id = some s → PlainName s) ∧
      PlainNames leafName compName l ∧ PlainNames leafName compName r
  | .call id f a => (∀ s, compName id = some s → PlainName s) ∧ PlainName f ∧
      PlainNames leafName compName a

def Tok.isName : Tok → Bool
  | .name _ => true
  | _ => false

/-- No two names in a row. -/
def NoAdj (ts : List Tok) : Prop := ts.IsChain fun a b => ¬ (a.isName = true ∧ b.isName = true)

theorem noAdj_mid {l r : List Tok} (t : Tok) (ht : t.isName = false) (hl : NoAdj l) (hr : NoAdj r) :
    NoAdj (l ++ t :: r) := by
  unfold NoAdj at *
  rw [List.isChain_append]
  refine ⟨hl, ?_, ?_⟩
  · rw [List.isChain_cons]
    exact ⟨fun y _ => by simp [ht], hr⟩
  · intro x _ y hy
    simp only [List.head?_cons, Option.mem_some_iff] at hy
    subst hy; simp [ht]

theorem noAdj_wrap (b : Bool) {l : List Tok} (hl : NoAdj l) : NoAdj (wrap b l) := by
  cases b with
  | false => simpa [wrap] using hl
  | true =>
    have h1 : NoAdj (l ++ [.rp]) := noAdj_mid (r := []) .rp rfl hl (by simp [NoAdj])
    have := noAdj_mid (l := []) .lp rfl (by simp [NoAdj]) h1
    simpa [wrap] using this

theorem noAdj_label (leafName : Nat → String) (compName : Nat → Option String) (p : PExpr) :
    NoAdj (label leafName compName p) := by
  have single : ∀ s, NoAdj [.name s] := fun s => by simp [NoAdj]
  induction p with
  | leaf id => exact single _
  | call id f a ih =>
    simp only [label]
    cases compName id with
    | some s => exact single _
    | none =>
      have h1 : NoAdj (wrap a.isComposite (label leafName compName a) ++ [.rp]) :=
        noAdj_mid (r := []) .rp rfl (noAdj_wrap _ ih) (by simp [NoAdj])
      have := noAdj_mid (l := [.name f]) .lp rfl (single f) h1
      simpa using this
  | bin id op l r ihl ihr =>
    simp only [label]
    cases compName id with
    | some s => exact single _
    | none =>
      cases op
      · exact noAdj_mid (.op .add) rfl ihl ihr
      · exact noAdj_mid (.op .sub) rfl ihl (noAdj_wrap _ ihr)
      · exact noAdj_mid (.op .mul) rfl (noAdj_wrap _ ihl) (noAdj_wrap _ ihr)
      · exact noAdj_mid (.op .div) rfl (noAdj_wrap _ ihl) (noAdj_wrap _ ihr)
      · exact noAdj_mid (.op .pow) rfl (noAdj_wrap _ ihl) (noAdj_wrap _ ihr)

theorem mem_wrap {b : Bool} {ts : List Tok} {s : String} : .name s ∈ wrap b ts ↔ .name s ∈ ts := by
  cases b <;> simp [wrap]

theorem plain_label (leafName : Nat → String) (compName : Nat → Option String) (p : PExpr)
    (hp : PlainNames leafName compName p) : ∀ s, .name s ∈ label leafName compName p → PlainName s := by
  induction p with
  | leaf id => intro s hs; simp only [label, List.mem_singleton, Tok.name.injEq] at hs; subst hs; exact hp
  | call id f a ih =>
    intro s hs
    obtain ⟨h1, h2, h3⟩ := hp
    simp only [label] at hs
    cases hc : compName id with
    | some x => rw [hc] at hs; simp at hs; subst hs; exact h1 _ hc
    | none =>
      rw [hc] at hs
      simp [mem_wrap] at hs
      rcases hs with rfl | hs
      · exact h2
      · exact ih h3 s hs
  | bin id op l r ihl ihr =>
    intro s hs
    obtain ⟨h1, h2, h3⟩ := hp
    simp only [label] at hs
    cases hc : compName id with
    | some x => rw [hc] at hs; simp at hs; subst hs; exact h1 _ hc
    | none =>
      rw [hc] at hs
      have : .name s ∈ label leafName compName l ∨ .name s ∈ label leafName compName r := by
        cases op <;> simpa [mem_wrap] using hs
      exact this.elim (ihl h2 s) (ihr h3 s)

/-- The characters of a rendered token list. -/
def chars (ts : List Tok) : List Char := ts.flatMap fun t => t.text.toList

theorem render_toList (ts : List Tok) : (render ts).toList = chars ts := by
  induction ts with
  | nil => rfl
  | cons t ts ih =>
    simp only [render, chars, List.map_cons, List.flatMap_cons, String.join_cons, String.toList_append] at ih ⊢
    rw [ih]

theorem tokenise_name (s acc rest : List Char) (hs : ∀ c ∈ s, special c = false) :
    tokenise acc (s ++ rest) = tokenise (acc ++ s) rest := by
  induction s generalizing acc with
  | nil => simp
  | cons c s ih =>
    have hc := hs c (by simp)
    rw [List.cons_append, tokenise]
    simp only [hc]
    rw [if_neg (by simp), ih _ (fun x hx => hs x (by simp [hx]))]
    simp

theorem tokenise_sym (t : Tok) (ht : t.isName = false) (acc rest : List Char) :
    tokenise acc (t.text.toList ++ rest) = flushName acc ++ t :: tokenise [] rest := by
  cases t with
  | name s => simp [Tok.isName] at ht
  | lp => simp [Tok.text, tokenise, special, specialTok]
  | rp => simp [Tok.text, tokenise, special, specialTok]
  | op o => cases o <;> simp [Tok.text, tokenise, special, specialTok, flushName]

theorem tokenise_chars (ts : List Tok) (hn : NoAdj ts) (hp : ∀ s, .name s ∈ ts → PlainName s) :
    tokenise [] (chars ts) = ts ∧
    ∀ acc : List Char, acc ≠ [] → (∀ t ∈ ts.head?, t.isName = false) →
      tokenise acc (chars ts) = flushName acc ++ ts := by
  induction ts with
  | nil => simp [chars, tokenise, flushName]
  | cons t ts ih =>
    have hn' : NoAdj ts := by unfold NoAdj at *; exact hn.tail
    obtain ⟨ih1, ih2⟩ := ih hn' (fun s hs => hp s (by simp [hs]))
    have hcons : chars (t :: ts) = t.text.toList ++ chars ts := by simp [chars]
    rw [hcons]
    cases ht : t.isName with
    | false =>
      refine ⟨?_, fun acc _ _ => ?_⟩
      · rw [tokenise_sym t ht, ih1]; simp [flushName]
      · rw [tokenise_sym t ht, ih1]
    | true =>
      refine ⟨?_, fun acc _ h => ?_⟩
      · cases t with
        | name s =>
          obtain ⟨hne, hsp⟩ := hp s (by simp)
          have hhead : ∀ x ∈ ts.head?, x.isName = false := by
            intro x hx
            unfold NoAdj at hn
            rw [List.isChain_cons] at hn
            have := hn.1 x hx
            simpa [Tok.isName] using this
          rw [show (Tok.name s).text = s from rfl, tokenise_name _ _ _ hsp, List.nil_append, ih2 _ hne hhead]
          cases hl : s.toList with
          | nil => exact absurd hl hne
          | cons c cs => simp [flushName, ← hl]
        | _ => simp [Tok.isName] at ht
      · have := h t (by simp)
        rw [ht] at this; cases this

/-- **C29.** The text of a displayed name determines its tokens: splitting the text at blanks,
operators and parentheses gives back the label, whenever the names in it are plain words. Together
with `C29_label_denotes_value`, the text denotes the value of the parameter. -/
theorem C29_text (leafName : Nat → String) (compName : Nat → Option String) (p : PExpr)
    (hp : PlainNames leafName compName p) :
    tokenise [] (render (label leafName compName p)).toList = label leafName compName p := by
  rw [render_toList]
  exact (tokenise_chars _ (noAdj_label ..) (plain_label _ _ p hp)).1

example : PlainNames exName (fun _ => none) exExpr := by
  have h : ∀ s ∈ ["x", "y", "z", "f"], PlainName s := by
    intro s hs
    simp only [List.mem_cons, List.not_mem_nil, or_false] at hs
    rcases hs with rfl | rfl | rfl | rfl <;> exact ⟨by decide, by decide⟩
  simp only [exExpr, PlainNames, exName]
  simp [h]

end Elisa.Models.Label
