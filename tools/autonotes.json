{
 "Val.same|| .other a, .other b => a⟦ == → != ⟧b": "killed after adding Val.same_iff and C161_last: m19",
 "sameList|| x :: xs, y :: ys => x.same y⟦ && → || ⟧sameList xs ys": "killed after adding Val.same_iff and C161_last: m19",
 "sameEntries|| _, _ => ⟦false→true⟧": "killed after adding Val.same_iff and C161_last: m19",
 "gvInf|noncomputable def gvInf (n b : ℝ) : EReal := if b⟦ ≤ → < ⟧n then ⊤ else ⊥": "killed after adding C154_equality_refuted: m19",
 "fallsE|| none => ⟦false→true⟧": "killed after adding C154_last_refuted: m19",
 "truncInt|def truncInt (q : ℚ) : Int := if 0⟦ ≤ → < ⟧q then ⌊q⌋ else ⌈q⌉": "equivalent: both branches give zero at zero",
 "truncInt|def truncInt (q : ℚ) : Int := if ⟦0→1⟧ ≤ q then ⌊q⌋ else ⌈q⌉": "killed after adding C77_seed: m20",
 "hexVal|else if 'A'⟦ ≤ → < ⟧c ∧ c ≤ 'F' then some (c.toNat - 55)": "killed after adding C69_channel: m20",
 "pyHex2|| some a, none => if d = ' ' ∨ d = '\\t' ∨ d⟦ = → ≠ ⟧'\\n' then some a else none": "killed after adding C69_channel: m20"
}