import Verif.Model.Processors
import Verif.Spec.Rules
import Verif.Proofs.Matches

/-! # C35: completion of year and season -/

namespace Guessit
open Spec

theorem named_eq_nil_iff {live : List Mt} {n : Str} : named live n = [] ↔ ¬ Found live n := by
  rw [List.eq_nil_iff_forall_not_mem]
  constructor
  · rintro h ⟨m, hm, hn⟩; exact h m (mem_named.2 ⟨hm, hn⟩)
  · intro h m hm; exact h ⟨m, (mem_named.1 hm).1, (mem_named.1 hm).2⟩

theorem seasonYears_ok {input : Str} : ∀ {ms ys : List Mt}, seasonYears input ms = .ok ys →
    (∀ y, y ∈ ys ↔ ∃ m ∈ ms, y = { m with name := some c!"year" } ∧ ∃ n, m.value input = .int n ∧ 1920 ≤ n ∧ n ≤ 2029) ∧
    (∀ m ∈ ms, ∃ n, m.value input = .int n) := by
  intro ms
  induction ms with
  | nil => intro ys h; cases h; simp
  | cons m ms ih =>
    intro ys h
    simp only [seasonYears] at h
    cases hv : m.value input with
    | str t => rw [hv] at h; simp [validYearVal] at h
    | obj t => rw [hv] at h; simp [validYearVal] at h
    | int n =>
      rw [hv] at h
      simp only [validYearVal] at h
      cases hr : seasonYears input ms with
      | error e => rw [hr] at h; simp at h
      | ok rest =>
        rw [hr] at h
        simp only [Except.ok.injEq] at h
        obtain ⟨h1, h2⟩ := ih hr
        have hb : validYear n = true ↔ 1920 ≤ n ∧ n ≤ 2029 := by simp [validYear]; omega
        refine ⟨?_, ?_⟩
        · intro y
          subst h
          by_cases hh : validYear n = true
          · rw [if_pos hh, List.mem_cons, h1]
            constructor
            · rintro (rfl | ⟨x, hx, hh'⟩)
              · exact ⟨m, by simp, rfl, n, hv, hb.1 hh⟩
              · exact ⟨x, by simp [hx], hh'⟩
            · rintro ⟨x, hx, hy, hh'⟩
              rcases List.mem_cons.1 hx with rfl | hx
              · exact Or.inl hy
              · exact Or.inr ⟨x, hx, hy, hh'⟩
          · rw [if_neg hh, h1]
            constructor
            · rintro ⟨x, hx, hh'⟩; exact ⟨x, by simp [hx], hh'⟩
            · rintro ⟨x, hx, hy, k, hk, hh'⟩
              rcases List.mem_cons.1 hx with rfl | hx
              · rw [hv] at hk; cases hk; exact absurd (hb.2 hh') hh
              · exact ⟨x, hx, hy, k, hk, hh'⟩
        · intro x hx
          rcases List.mem_cons.1 hx with rfl | hx
          · exact ⟨n, hv⟩
          · exact h2 x hx

/-- C35: a year is only ever added when none was found; then each season between 1920 and 2029 is also reported as a year,
same text and value, and nothing else is added or removed. -/
theorem C35_year (s s' : Ms) (h : seasonYear s = .ok s') :
    ∃ added, s' = { s with live := s.live ++ added } ∧
      (∀ y ∈ added, ¬ Found s.live c!"year" ∧ ∃ season ∈ s.live, season.name = some c!"season" ∧
        y = { season with name := some c!"year" } ∧ ∃ n, season.value s.input = .int n ∧ 1920 ≤ n ∧ n ≤ 2029) ∧
      (¬ Found s.live c!"year" → ∀ season ∈ s.live, season.name = some c!"season" →
        ∀ n, season.value s.input = .int n → 1920 ≤ n → n ≤ 2029 →
          ∃ y ∈ s'.live, y.name = some c!"year" ∧ y.start = season.start ∧ y.stop = season.stop ∧ y.value s.input = .int n) := by
  unfold seasonYear at h
  by_cases hy : named s.live c!"year" = []
  · rw [if_pos hy] at h
    have hno := named_eq_nil_iff.1 hy
    cases hr : seasonYears s.input (named s.live c!"season") with
    | error e => rw [hr] at h; simp at h
    | ok ys =>
      rw [hr] at h
      simp only [Except.ok.injEq] at h
      obtain ⟨h1, _⟩ := seasonYears_ok hr
      obtain ⟨added, e1, e2⟩ := appendAll_eq s.input ys s.live
      refine ⟨added, by rw [← h, e1], ?_, ?_⟩
      · intro y hya
        obtain ⟨m, hm, hh⟩ := (h1 y).1 (e2.subset hya)
        exact ⟨hno, m, (mem_named.1 hm).1, (mem_named.1 hm).2, hh⟩
      · intro _ m hm hn n hv ha hb
        have hin : ({ m with name := some c!"year" } : Mt) ∈ ys := (h1 _).2 ⟨m, mem_named.2 ⟨hm, hn⟩, rfl, n, hv, ha, hb⟩
        obtain ⟨x, hx, hk⟩ := appendAll_has s.input ys s.live _ hin
        refine ⟨x, by rw [← h]; exact hx, ?_, ?_, ?_, ?_⟩
        · exact (congrArg MtKey.name hk).symm
        · exact (congrArg MtKey.start hk).symm
        · exact (congrArg MtKey.stop hk).symm
        · have := (congrArg MtKey.value hk).symm
          exact this.trans hv
  · rw [if_neg hy] at h
    cases h
    refine ⟨[], by simp, by simp, ?_⟩
    intro hn; exact absurd (named_eq_nil_iff.2 hn) hy

/-- C35: the rule fails only if a season is not a number (it cannot be compared with years) and no year was found. -/
theorem C35_year_error (s : Ms) :
    (∀ e, seasonYear s = .error e → e = .typeError) ∧
    ((∃ e, seasonYear s = .error e) ↔
      ¬ Found s.live c!"year" ∧ ∃ season ∈ s.live, season.name = some c!"season" ∧ ∀ n, season.value s.input ≠ .int n) := by
  have key : ∀ ms, (∀ e, seasonYears s.input ms = .error e → e = .typeError) ∧
      ((∃ e, seasonYears s.input ms = .error e) ↔ ∃ m ∈ ms, ∀ n, m.value s.input ≠ .int n) := by
    intro ms
    induction ms with
    | nil => simp [seasonYears]
    | cons m ms ih =>
      obtain ⟨i1, i2⟩ := ih
      simp only [seasonYears]
      cases hv : m.value s.input with
      | str t => simp [validYearVal, hv]
      | obj t => simp [validYearVal, hv]
      | int n =>
        simp only [validYearVal]
        cases hr : seasonYears s.input ms with
        | error e =>
          refine ⟨by intro e' h; cases h; exact i1 e hr, ?_⟩
          obtain ⟨x, hx, hh⟩ := i2.1 ⟨e, hr⟩
          exact ⟨fun _ => ⟨x, by simp [hx], hh⟩, fun _ => ⟨e, rfl⟩⟩
        | ok ys =>
          refine ⟨by intro e' h; simp at h, ?_⟩
          constructor
          · rintro ⟨e, h⟩; simp at h
          · rintro ⟨x, hx, hh⟩
            rcases List.mem_cons.1 hx with rfl | hx
            · exact absurd hv (hh n)
            · obtain ⟨e, he⟩ := i2.2 ⟨x, hx, hh⟩
              rw [hr] at he; simp at he
  obtain ⟨k1, k2⟩ := key (named s.live c!"season")
  unfold seasonYear
  by_cases hy : named s.live c!"year" = []
  · simp only [if_pos hy]
    have hno := named_eq_nil_iff.1 hy
    cases hr : seasonYears s.input (named s.live c!"season") with
    | error e =>
      refine ⟨by intro e' h; cases h; exact k1 e hr, ?_⟩
      obtain ⟨m, hm, hh⟩ := k2.1 ⟨e, hr⟩
      exact ⟨fun _ => ⟨hno, m, (mem_named.1 hm).1, (mem_named.1 hm).2, hh⟩, fun _ => ⟨e, rfl⟩⟩
    | ok ys =>
      refine ⟨by intro e' h; simp at h, ?_⟩
      constructor
      · rintro ⟨e, h⟩; simp at h
      · rintro ⟨_, m, hm, hn, hh⟩
        obtain ⟨e, he⟩ := k2.2 ⟨m, mem_named.2 ⟨hm, hn⟩, hh⟩
        rw [hr] at he; simp at he
  · simp only [if_neg hy]
    refine ⟨by intro e' h; simp at h, ?_⟩
    constructor
    · rintro ⟨e, h⟩; simp at h
    · rintro ⟨hn, _⟩; exact absurd (named_eq_nil_iff.2 hn) hy

/-- C35: seasons are only ever added when there was an episode and no season; then each year is also reported as a season,
same text and value, and nothing else is added or removed. -/
theorem C35_season (s : Ms) :
    ∃ added, yearSeason s = { s with live := s.live ++ added } ∧
      (∀ x ∈ added, ¬ Found s.live c!"season" ∧ Found s.live c!"episode" ∧
        ∃ year ∈ s.live, year.name = some c!"year" ∧ x = { year with name := some c!"season" }) ∧
      (¬ Found s.live c!"season" → Found s.live c!"episode" → ∀ year ∈ s.live, year.name = some c!"year" →
        ∃ x ∈ (yearSeason s).live, x.name = some c!"season" ∧ x.start = year.start ∧ x.stop = year.stop ∧
          x.value s.input = year.value s.input) := by
  unfold yearSeason
  by_cases hc : named s.live c!"season" = [] ∧ named s.live c!"episode" ≠ []
  · rw [if_pos hc]
    obtain ⟨added, e1, e2⟩ := appendAll_eq s.input ((named s.live c!"year").map fun m => { m with name := some c!"season" }) s.live
    have h1 := named_eq_nil_iff.1 hc.1
    have h2 : Found s.live c!"episode" := Classical.byContradiction fun h => hc.2 (named_eq_nil_iff.2 h)
    refine ⟨added, by rw [e1], ?_, ?_⟩
    · intro x hx
      obtain ⟨m, hm, rfl⟩ := List.mem_map.1 (e2.subset hx)
      exact ⟨h1, h2, m, (mem_named.1 hm).1, (mem_named.1 hm).2, rfl⟩
    · intro _ _ m hm hn
      obtain ⟨x, hx, hk⟩ := appendAll_has s.input _ s.live _
        (List.mem_map_of_mem (f := fun m : Mt => { m with name := some c!"season" }) (mem_named.2 ⟨hm, hn⟩))
      exact ⟨x, hx, (congrArg MtKey.name hk).symm, (congrArg MtKey.start hk).symm, (congrArg MtKey.stop hk).symm,
        (congrArg MtKey.value hk).symm⟩
  · rw [if_neg hc]
    refine ⟨[], by simp, by simp, ?_⟩
    intro h1 h2
    exact absurd ⟨named_eq_nil_iff.2 h1, fun h => named_eq_nil_iff.1 h h2⟩ hc

/-- A season 2010 without a year becomes a year as well; a year with an episode becomes a season as well. -/
example : let se : Mt := { id := 0, start := 0, stop := 4, name := some c!"season", val := some (.int 2010) }
    let y : Mt := { id := 0, start := 0, stop := 4, name := some c!"year", val := some (.int 2010) }
    let e : Mt := { id := 1, start := 5, stop := 6, name := some c!"episode", val := some (.int 3) }
    (seasonYear ⟨c!"2010x3", [se, e], []⟩).map (fun s => s.live.map Mt.name) = .ok [some c!"season", some c!"episode", some c!"year"] ∧
    (yearSeason ⟨c!"2010x3", [y, e], []⟩).live.map Mt.name = [some c!"year", some c!"episode", some c!"season"] := ⟨rfl, by decide⟩

end Guessit
