import Verif.Infer.EndToEndSpec

/-!
# Lemmas for C97: what a loaded data set holds
-/

namespace Elisa.Infer

open Elisa Elisa.Grouping Elisa.Data

theorem use_consistent {o : Obs} {n : ℕ} (ho : o.Legal n) {x : ObsObj} (hx : x.Consistent o n) (u : Use) : (useStep o x u).Consistent o n := by
  cases u with
  | setErange r => exact (step_consistent ho hx (.setErange r)).1
  | setGrouping f => exact (step_consistent ho hx (.setGrouping f)).1
  | group m scale preserve =>
    simp only [useStep]
    cases hg : o.group x.erange m scale preserve with
    | error e => exact hx
    | ok r =>
      simp only
      simp only [Obs.group, bind, Except.bind, pure, Except.pure] at hg
      split at hg
      · cases hg
      split at hg
      · cases hg
      split at hg
      · cases hg
      split at hg
      · cases hg
      split at hg
      · cases hg
      split at hg
      · cases hg
      · rename_i final _ _ st hs
        cases hg
        by_cases hl : final.length = n
        · obtain ⟨st', h1, -, h3, h4, h5⟩ := setGrouping_ok ho x.erange final hl
          rw [h1] at hs
          cases hs
          exact ⟨h5, h3, h4, hx.ranges, hx.sorted⟩
        · rw [(C14_restore_and_reject o n ho x.erange).2 final hl] at hs
          cases hs

theorem useAll_consistent {o : Obs} {n : ℕ} (ho : o.Legal n) {x : ObsObj} (hx : x.Consistent o n) (us : List Use) : (useAll o x us).Consistent o n := by
  unfold useAll
  induction us generalizing x with
  | nil => exact hx
  | cons u us ih => exact ih (use_consistent ho hx u)

theorem build_detchans {m : Rmf} {arf : Option (List ℝ)} {r : Response} (h : m.build arf = .ok r) : ∃ nc, m.detchans = some nc := by
  cases hd : m.detchans with
  | some nc => exact ⟨nc, rfl⟩
  | none =>
    simp only [Rmf.build, bind, Except.bind] at h
    cases hg : photonGrid m.elo m.ehi with
    | error e => rw [hg] at h; cases h
    | ok grid => rw [hg] at h; simp [readMatrix, hd] at h

/-- the response built from the file: every entry is the encoded one times the effective area -/
theorem build_matrix {m : Rmf} {arf : Option (List ℝ)} {r : Response} {nc : ℕ} (h : m.build arf = .ok r) (hd : m.detchans = some nc) :
    r.Legal nc ∧ r.emin = m.emin ∧ r.emax = m.emax ∧
    ∀ M : ℕ → ℕ → ℝ, (∀ (k : ℕ) row, m.rows[k]? = some row → Encodes (m.tlmin.getD 1) nc row (M k)) →
      r.matrix.length = m.rows.length ∧
      ∀ k, k < m.rows.length → ∀ i, i < nc → at0 (r.matrix.getD k []) i = M k i * (arf.map (·.getD k 0)).getD 1 := by
  simp only [Rmf.build, bind, Except.bind] at h
  cases hg : photonGrid m.elo m.ehi with
  | error e => rw [hg] at h; cases h
  | ok grid =>
    rw [hg] at h; simp only at h
    cases hm : readMatrix m.detchans m.tlmin m.rows with
    | error e => rw [hm] at h; cases h
    | ok mat =>
      rw [hm] at h; simp only at h
      have hrect : ∀ row ∈ mat, row.length = nc := by
        simp only [readMatrix, hd, bind, Except.bind] at hm
        cases hc : rmfRows (m.tlmin.getD 1) 0 m.rows with
        | error e => rw [hc] at hm; cases hm
        | ok c =>
          rw [hc] at hm; simp only [cooArray] at hm
          split_ifs at hm
          obtain rfl := Except.ok.inj hm
          intro row hrow
          obtain ⟨i, -, rfl⟩ := List.mem_map.1 hrow
          simp
      cases ha : applyArf mat arf with
      | error e => rw [ha] at h; cases h
      | ok mat' =>
        rw [ha] at h; simp only at h
        have hrect' : ∀ row ∈ mat', row.length = nc := by
          cases arf with
          | none => obtain rfl := Except.ok.inj ha; exact hrect
          | some v =>
            simp only [applyArf] at ha
            split_ifs at ha
            obtain rfl := Except.ok.inj ha
            intro row hrow
            obtain ⟨i, hi, rfl⟩ := List.mem_iff_getElem.1 hrow
            simp only [List.getElem_zipWith, List.length_map]
            exact hrect _ (List.getElem_mem _)
        rw [hd] at h
        obtain ⟨hl, h1, h2, h3⟩ := (C21_response _ _ _ _ _ _ _ hrect').2 r h
        refine ⟨hl, h1, h2, fun M hM => ?_⟩
        have hdec := C20_decode nc m.tlmin m.rows M hM
        rw [hd, hdec] at hm
        obtain rfl := Except.ok.inj hm
        cases arf with
        | none =>
          obtain rfl := Except.ok.inj ha
          rw [h3]
          refine ⟨by simp, fun k hk i hi => ?_⟩
          simp [at0, List.getD, hk, hi]
        | some v =>
          by_cases hv : v.length = m.rows.length
          · obtain ⟨M', e1, e2, e3⟩ := (C20_arf ((List.range m.rows.length).map fun k => (List.range nc).map fun c => M k c) v).2.1 (by simpa using hv)
            rw [e1] at ha
            obtain rfl := Except.ok.inj ha
            rw [h3]
            refine ⟨by simpa using e2, fun k hk i hi => ?_⟩
            have := e3 k ((List.range nc).map fun c => M k c) v[k] (by simp [hk]) (List.getElem?_eq_getElem (by omega))
            rw [List.getD_eq_getElem?_getD, this]
            simp [at0, List.getD, hi, List.getElem?_eq_getElem (show k < v.length by omega)]
          · rw [(C20_arf _ v).1 (by simpa using hv)] at ha
            cases ha

/-- everything known about an accepted `Data(...)` -/
structure Facts (int : Path → Option Int) (fs : Files) (a : LoadArgs) (d : Loaded) (S : Sources) (n : ℕ) : Prop where
  srcs : S.Of int fs a
  chans : S.rmf.detchans = some n
  legal : d.obs.Legal n
  src : S.src.read a.specPoisson = .ok d.obs.spec
  back : (S.back = none ∧ d.obs.back = none) ∨ ∃ p s, S.back = some p ∧ d.obs.back = some s ∧ p.read a.backPoisson = .ok s
  resp : S.rmf.build S.arf = .ok d.obs.resp
  cons : d.obj.Consistent d.obs n
  good : ∀ i, i < n → (d.obs.good[i]? = some true ↔
    ¬ Excluded a.ignoreBad d.obs.spec.quality i ∧ ∀ b, d.obs.back = some b → ¬ Excluded a.ignoreBad b.quality i)

theorem loadResponse_ok {int : Path → Option Int} {fs : Files} {p ancr : Path} {r : Response} (h : loadResponse int fs p ancr = .ok r) :
    ∃ f id exts m arf, parsePath int p = .ok (f, id) ∧ fs.resp f = some exts ∧ exts (id.getD 1) = some m ∧ loadArf fs ancr = .ok arf ∧ m.build arf = .ok r := by
  rw [loadResponse] at h
  cases hp : parsePath int p with
  | error e => rw [hp] at h; cases h
  | ok q =>
    obtain ⟨f, id⟩ := q
    rw [hp] at h; simp only at h
    cases hf : fs.resp f with
    | none => rw [hf] at h; cases h
    | some exts =>
      rw [hf] at h; simp only at h
      cases he : exts (id.getD 1) with
      | none => rw [he] at h; cases h
      | some m =>
        rw [he] at h; simp only at h
        cases ha : loadArf fs ancr with
        | error e => rw [ha] at h; cases h
        | ok arf =>
          rw [ha] at h; simp only at h
          cases hb : m.build arf with
          | error e => rw [hb] at h; cases h
          | ok r' =>
            rw [hb] at h
            obtain rfl := Except.ok.inj h
            exact ⟨f, id, exts, m, arf, rfl, hf, he, rfl, hb⟩

theorem load_facts {int : Path → Option Int} {fs : Files} {a : LoadArgs} {d : Loaded} (h : loadData int fs a = .ok d) : ∃ S n, Facts int fs a d S n := by
  rw [loadData] at h
  cases hs : loadSpectrum int fs a.spec a.specPoisson with
  | error e => rw [hs] at h; cases h
  | ok q =>
    obtain ⟨spec, row⟩ := q
    rw [hs] at h; simp only at h
    cases hn : dataName a.name row.names with
    | error e => rw [hn] at h; cases h
    | ok name =>
      rw [hn] at h; simp only at h
      cases hr : loadResp int fs a row with
      | error e => rw [hr] at h; cases h
      | ok resp =>
        rw [hr] at h; simp only at h
        split_ifs at h with hsz
        cases hb : loadBack int fs a row with
        | error e => rw [hb] at h; cases h
        | ok back =>
          rw [hb] at h; simp only at h
          cases hf : finish a name spec back resp with
          | error e => rw [hf] at h; cases h
          | ok d' =>
            rw [hf] at h
            obtain rfl := (Except.ok.inj h).symm
            obtain ⟨f, id, t, hp, ht, hrow, hread⟩ := loadSpectrum_ok.1 hs
            obtain ⟨rp, f2, id2, exts, m, arf, hrp, hp2, hf2, hm, harf, hbuild⟩ : ∃ rp f id exts m arf, Named a.resp row.resp rp ∧
                parsePath int rp = .ok (f, id) ∧ fs.resp f = some exts ∧ exts (id.getD 1) = some m ∧
                loadArf fs (fileOr a.ancr (fileField row.ancr)) = .ok arf ∧ m.build arf = .ok resp := by
              rw [loadResp] at hr
              rcases fileOr_cases a.resp row.resp with ⟨hnil, -⟩ | hnamed
              · rw [if_pos hnil] at hr; cases hr
              · rw [if_neg hnamed.1] at hr
                obtain ⟨f, id, exts, m, arf, h1, h2, h3, h4, h5⟩ := loadResponse_ok hr
                exact ⟨_, f, id, exts, m, arf, hnamed, h1, h2, h3, h4, h5⟩
            obtain ⟨nc, hnc⟩ := build_detchans hbuild
            obtain ⟨hrl, -⟩ := build_matrix hbuild hnc
            obtain ⟨n, hsl⟩ := read_legal hread
            have hbk : (Unnamed a.back row.back ∧ back = none) ∨ ∃ bp f id t br b, Named a.back row.back bp ∧ parsePath int bp = .ok (f, id) ∧
                fs.spec f = some t ∧ t.row id = .ok br ∧ br.pha.read a.backPoisson = .ok b ∧ back = some b := by
              rw [loadBack] at hb
              rcases fileOr_cases a.back row.back with ⟨hnil, hu⟩ | hnamed
              · rw [if_pos hnil] at hb
                exact .inl ⟨hu, (Except.ok.inj hb).symm⟩
              · rw [if_neg hnamed.1] at hb
                cases hl : loadSpectrum int fs (fileOr a.back (fileField row.back)) a.backPoisson with
                | error e => rw [hl] at hb; cases hb
                | ok b =>
                  rw [hl] at hb
                  obtain ⟨b, br⟩ := b
                  obtain ⟨f, id, t, h1, h2, h3, h4⟩ := loadSpectrum_ok.1 hl
                  exact .inr ⟨_, f, id, t, br, b, hnamed, h1, h2, h3, h4, (Except.ok.inj hb).symm⟩
            have hbl : ∀ b, back = some b → ∃ k, b.Legal k := by
              rintro b rfl
              rcases hbk with ⟨-, h⟩ | ⟨_, _, _, _, _, b', _, _, _, _, h5, h6⟩
              · cases h
              · cases h6; exact read_legal h5
            have harfS : (Unnamed a.ancr row.ancr ∧ arf = none) ∨ ∃ ap l, Named a.ancr row.ancr ap ∧ fs.arf ap = some l ∧ arf = some l := by
              rcases fileOr_cases a.ancr row.ancr with ⟨hnil, hu⟩ | hnamed
              · left
                rw [hnil] at harf
                exact ⟨hu, (Except.ok.inj harf).symm⟩
              · right
                rw [loadArf, if_neg hnamed.1] at harf
                cases hq : fs.arf (fileOr a.ancr (fileField row.ancr)) with
                | none => rw [hq] at harf; cases harf
                | some l => rw [hq] at harf; exact ⟨_, l, hnamed, hq, (Except.ok.inj harf).symm⟩
            simp only [finish, bind, Except.bind, pure, Except.pure] at hf
            cases ho : Obs.make spec back resp a.ignoreBad with
            | error e => rw [ho] at hf; cases hf
            | ok o =>
              rw [ho] at hf; simp only at hf
              obtain ⟨c1, c2⟩ := C21_observation spec back resp a.ignoreBad n nc hsl hrl hbl
              obtain ⟨hnn, -⟩ := c1.1 ⟨o, ho⟩
              subst hnn
              obtain ⟨hol, e1, e2, e3, e4⟩ := c2 o ho
              cases hx : ObsObj.new o a.erange with
              | error e => rw [hx] at hf; cases hf
              | ok x =>
                rw [hx] at hf; simp only at hf
                have hcons : x.Consistent o n := (C15_history o n hol a.erange []).2 x hx
                have key : d.obs = o ∧ d.obj.Consistent o n := by
                  cases hg : a.group with
                  | none =>
                    rw [hg] at hf
                    obtain rfl := (Except.ok.inj hf).symm
                    exact ⟨rfl, hcons⟩
                  | some q =>
                    obtain ⟨me, sc, pr⟩ := q
                    rw [hg] at hf; simp only at hf
                    split at hf
                    · cases hf
                    · rename_i r hgr
                      obtain rfl := (Except.ok.inj hf).symm
                      refine ⟨rfl, ?_⟩
                      have := use_consistent hol hcons (.group me sc pr)
                      simp only [useStep, hgr] at this
                      exact this
                obtain ⟨rfl, hc⟩ := key
                have hgood : ∀ i, i < n → (d.obs.good[i]? = some true ↔
                    ¬ Excluded a.ignoreBad d.obs.spec.quality i ∧ ∀ b, d.obs.back = some b → ¬ Excluded a.ignoreBad b.quality i) := by
                  rw [e1, e2]; exact e4
                rcases hbk with ⟨hu, hnone⟩ | ⟨bp, f3, id3, t3, br, b, hbp, hp3, hf3, hr3, hread3, hsome⟩
                · refine ⟨⟨row.pha, none, m, arf⟩, n, ⟨⟨row, rfl, ⟨f, id, t, hp, ht, hrow⟩, .inl ⟨hu, rfl⟩, ⟨rp, f2, id2, exts, hrp, hp2, hf2, hm⟩, harfS⟩⟩,
                    hnc, hol, by rw [e1]; exact hread, .inl ⟨rfl, by rw [e2]; exact hnone⟩, by rw [e3]; exact hbuild, hc, hgood⟩
                · refine ⟨⟨row.pha, some br.pha, m, arf⟩, n, ⟨⟨row, rfl, ⟨f, id, t, hp, ht, hrow⟩, .inr ⟨bp, f3, id3, t3, br, hbp, hp3, hf3, hr3, rfl⟩,
                    ⟨rp, f2, id2, exts, hrp, hp2, hf2, hm⟩, harfS⟩⟩,
                    hnc, hol, by rw [e1]; exact hread, .inr ⟨br.pha, b, rfl, by rw [e2]; exact hsome, hread3⟩, by rw [e3]; exact hbuild, hc, hgood⟩

end Elisa.Infer
