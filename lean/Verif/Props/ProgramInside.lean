import Verif.Props.ProgramPlace
import Verif.Props.EnginePlaceMarks
import Verif.Props.EngineStrip

/-! # C152 and C37 for the whole program: what is reported is somewhere in the name, and its text is bare -/

namespace Guessit
open Spec

/-- What the patterns find is non-empty and in the name. -/
theorem grown_within {O : Outside} (hO : O.Sized) {g : Dict} {s : Str} {gs : List Grown} (h : grownOf O g s = .ok gs) : ∀ G ∈ gs, ∀ m ∈ G.all, Placed s m := by
  obtain ⟨fs, rfl, hfs⟩ := grownOf_spec h
  intro G hG m hm
  obtain ⟨x, hx, hlt, i, rfl⟩ := mem_growFrom hG
  obtain ⟨d, hd, h1, h2, l, hl, hF⟩ := hfs x hx
  have hw := all_within O hO d hd g s l hl x.2 hF
  rcases mem_grow_all hm with rfl | ⟨b, hb, hbs, j, rfl⟩
  · exact Placed.new ⟨hlt, hw _ List.mem_cons_self⟩
  · exact Placed.new ⟨hbs, hw b (List.mem_cons_of_mem _ hb)⟩

theorem child_placed {O : Outside} (hO : O.Sized) {g : Dict} {input : Str} {gs : List Grown} (h : grownOf O g input = .ok gs) {s : Ms}
    (hw : Held input s.live) {m c : Mt} (hc : c ∈ (kinOf gs s).children m) : Placed input c := by
  obtain ⟨G, hG, hc⟩ := mem_children hc
  have hG := (familyOf_spec hG).1
  rcases hc with ⟨k, hk, rfl | ⟨x, hx, _, hlt, rfl⟩⟩ | ⟨x, hx, hlt, rfl⟩
  · exact grown_within hO h G hG _ (List.mem_cons_of_mem _ hk)
  · exact ⟨hlt, (hw.1 x hx).1, hw.2 x hx⟩
  · exact ⟨hlt, (hw.1 x hx).1, hw.2 x hx⟩

theorem program_inside {O : Outside} (hO : O.Sized) {base : RuleEnv} (hb : base.title.lower [] = []) {g : Dict} {s : Str} {gs : List Grown}
    (h : grownOf O g s = .ok gs) : Inside (ruleEnvOf O base gs s) s where
  sizes := fun _ _ _ _ hw _ _ hc => child_placed hO h hw hc
  marked := fun _ _ _ _ hw _ _ hc => child_placed hO h hw hc
  lower := hb

theorem program_fresh {O : Outside} (hO : O.Sized) {g : Dict} {s : Str} {gs : List Grown} (h : grownOf O g s = .ok gs) : Fresh s (reportedBy gs) where
  ids := grown_ids h
  raw := fun m hm => ⟨(grown_raw h m hm).1, (grown_raw h m hm).2.1⟩
  spans := fun m hm => by
    obtain ⟨G, hG, hm⟩ := List.mem_flatMap.1 hm
    obtain ⟨F, d, n, _, rfl, _⟩ := grown_lawful h G hG
    have := grown_within hO h _ hG m ((grow_live_sub F d n).subset hm)
    exact ⟨this.1, this.2.1⟩

/-- What a run of the program begins with. -/
theorem program_starts {O : Outside} {base : RuleEnv} {g : Dict} {s : Str} {s' : Ms} (h : program O base g s = .ok s') :
    ∃ gs, grownOf O g s = .ok gs ∧ engine (ruleEnvOf O base gs s) g (beginning g gs s) = .ok s' := by
  unfold program at h
  split at h
  · cases h
  · rename_i gs hg
    exact ⟨gs, hg, h⟩

/-- C152 for the whole program: whatever `Rebulk.matches` gives is a non-empty stretch of the name, except the `type` and the `mimetype`, which are at its end. -/
theorem C152_program (O : Outside) (hO : O.Sized) (base : RuleEnv) (hl : ∀ t, base.uni.lower t = [] ↔ t = []) (hb : base.title.lower [] = [])
    (g : Dict) (s : Str) (s' : Ms) (h : program O base g s = .ok s') :
    ∀ m ∈ s'.live, (m.name ≠ some c!"type" → m.name ≠ some c!"mimetype" → m.start < m.stop ∧ m.stop ≤ s.length) ∧
      (m.name = some c!"type" ∨ m.name = some c!"mimetype" → m.start = s.length ∧ m.stop = s.length) := by
  obtain ⟨gs, hg, h⟩ := program_starts h
  exact C152_name _ (program_natural hl hg) g c!"([{" c!")]}" s (by decide) (by decide) (reportedBy gs) (grown_gives hg)
    (program_fresh hO hg) (program_inside hO hb hg) s' h

/-- C37 for the whole program: the text of whatever `Rebulk.matches` gives, the `type` and the `mimetype` apart, is not empty, and neither begins nor ends with a
separator that is not a bracket, unless it is an acronym there. -/
theorem C37_program (O : Outside) (hO : O.Sized) (base : RuleEnv) (hl : ∀ t, base.uni.lower t = [] ↔ t = []) (hb : base.title.lower [] = [])
    (g : Dict) (s : Str) (s' : Ms) (h : program O base g s = .ok s') :
    ∀ m ∈ s'.live, m.name ≠ some c!"type" → m.name ≠ some c!"mimetype" → Bare (m.raw s) := by
  obtain ⟨gs, hg, h⟩ := program_starts h
  have hf := program_fresh hO hg
  exact C37_reported _ (program_natural hl hg) g (beginning g gs s) s' (program_inside hO hb hg) (marksOf_marked (by decide) (by decide) rfl)
    (marksOf_before (by decide) rfl hf) hf.spans h

end Guessit
