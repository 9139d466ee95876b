import Verif.Spec.Trades
import Verif.Props.Solver
import Verif.Props.Numeral

/-!
# C107: guessit's conflict solvers
-/

namespace Guessit
open Spec

theorem called_iff {m : Mt} {names : List Str} : m.isOneOf names = true ↔ Called m names := by
  unfold Mt.isOneOf Called
  cases h : m.name with
  | none => simp
  | some n => simp

theorem isOneOf_false {m : Mt} {names : List Str} : m.isOneOf names = false ↔ ¬ Called m names := by
  rw [← called_iff, Bool.not_eq_true]

theorem called_one {m : Mt} {n : Str} : Called m [n] ↔ m.name = some n := by
  unfold Called; simp

theorem called_swap {m : Mt} {a b : Str} : Called m [a, b] ↔ Called m [b, a] := by
  unfold Called; simp only [List.mem_cons, List.not_mem_nil, or_false, exists_eq_or_imp, exists_eq_left]; exact or_comm

theorem flimsy_iff {B : Bench} {m : Mt} : flimsy B m = true ↔ Loose B m := by
  unfold flimsy Loose
  rw [Bool.or_eq_true, tagged_iff, List.contains_iff_mem]

theorem isInt_iff {B : Bench} {m : Mt} : isInt B.uni (m.raw B.input) = true ↔ Numerical B m := by
  unfold isInt Numerical
  cases pyInt B.uni (m.raw B.input) <;> simp

theorem weakInitiator_iff {B : Bench} {m : Mt} :
    weakInitiator B m = true ↔ Called (B.kin.initiator m) [c!"weak_episode", c!"weak_duplicate"] := called_iff


/-- A solver with one rule. -/
theorem rule_other {c : Bool} {P : Prop} (h : c = true ↔ P) : ((if c then Answer.other else .dflt) = .other ↔ P) ∧
    ((if c then Answer.other else .dflt) = .itself ↔ False) ∧ (if c then Answer.other else .dflt) ≠ .both := by
  cases c <;> simp_all

theorem rule_itself {c : Bool} {P : Prop} (h : c = true ↔ P) : ((if c then Answer.itself else .dflt) = .other ↔ False) ∧
    ((if c then Answer.itself else .dflt) = .itself ↔ P) ∧ (if c then Answer.itself else .dflt) ≠ .both := by
  cases c <;> simp_all

theorem rule_choice {c : Bool} {P : Prop} (h : c = true ↔ P) : ((if c then Answer.itself else .other) = .other ↔ ¬ P) ∧
    ((if c then Answer.itself else .other) = .itself ↔ P) ∧ (if c then Answer.itself else .other) ≠ .both := by
  cases c <;> simp_all

/-- The answers of a solver as a table. -/
def Tells (B : Bench) (t : Trade) : Prop := ∀ x y : Mt, (solverFor B t x y = .other ↔ Ousts B t x y) ∧
  (solverFor B t x y = .itself ↔ GivesWay B t x y) ∧ solverFor B t x y ≠ .both

theorem tells_of {B : Bench} {t : Trade} {f : Solver} (hf : solverFor B t = f) {P Q : Mt → Mt → Prop}
    (h : ∀ x y, (f x y = .other ↔ P x y) ∧ (f x y = .itself ↔ Q x y) ∧ f x y ≠ .both)
    (hP : ∀ x y, P x y ↔ Ousts B t x y) (hQ : ∀ x y, Q x y ↔ GivesWay B t x y) : Tells B t := by
  intro x y
  rw [hf]
  exact ⟨(h x y).1.trans (hP x y), (h x y).2.1.trans (hQ x y), (h x y).2.2⟩

theorem no_names {m : Mt} {l l' : List Str} (h : Called m l) (h' : Called m l') (hd : ∀ n ∈ l, n ∉ l') : False := by
  obtain ⟨n, h1, h2⟩ := h
  obtain ⟨n', h1', h2'⟩ := h'
  rw [h2] at h2'
  cases h2'
  exact hd n h1 h1'

theorem tells_audioCodec (B : Bench) : Tells B .audioCodec := by
  intro x y
  show (audioCodecPriority x y = _ ↔ _) ∧ (audioCodecPriority x y = _ ↔ _) ∧ audioCodecPriority x y ≠ _
  unfold audioCodecPriority
  by_cases h1 : (decide (x.name = some c!"audio_codec") && y.isOneOf [c!"audio_profile", c!"audio_channels"]) = true
  · rw [if_pos h1]
    rw [Bool.and_eq_true, decide_eq_true_eq, called_iff, ← called_one] at h1
    refine ⟨⟨fun _ => .audioCodec h1.1 h1.2, fun _ => rfl⟩, ⟨nofun, ?_⟩, by decide⟩
    intro h
    cases h with
    | audioCodec h2 h3 => exact (no_names h1.1 h2 (by decide)).elim
  · rw [if_neg h1]
    rw [Bool.and_eq_true, decide_eq_true_eq, called_iff, ← called_one] at h1
    have hno : ¬ Ousts B .audioCodec x y := by intro h; cases h with | audioCodec h2 h3 => exact h1 ⟨h2, h3⟩
    have key : (x.isOneOf [c!"audio_profile", c!"audio_channels"] && decide (y.name = some c!"audio_codec")) = true ↔
        GivesWay B .audioCodec x y := by
      rw [Bool.and_eq_true, decide_eq_true_eq, called_iff, ← called_one]
      constructor
      · rintro ⟨a, b⟩; exact .audioCodec a b
      · intro h
        cases h with
        | audioCodec a b => exact ⟨a, b⟩
    obtain ⟨k1, k2, k3⟩ := rule_itself key
    exact ⟨⟨fun h => (k1.1 h).elim, fun h => (hno h).elim⟩, k2, k3⟩

theorem tells_simple (B : Bench) : Tells B .extension ∧ Tells B .container ∧ Tells B .crc32 ∧ Tells B .uuid ∧ Tells B .expected ∧
    Tells B .tv ∧ Tells B .year ∧ Tells B .date ∧ Tells B .dtsHd ∧ Tells B .bonus ∧ Tells B .specialEdition := by
  refine ⟨?_, ?_, ?_, ?_, ?_, ?_, ?_, ?_, ?_, ?_, ?_⟩
  · refine tells_of rfl (fun x y => rule_other Iff.rfl) ?_ ?_ <;> intro x y
    · rw [Bool.or_eq_true, Bool.and_eq_true, decide_eq_true_eq, Bool.not_eq_true', called_iff, ← called_one]
      constructor
      · rintro (h | ⟨h, h'⟩)
        · exact .extension h
        · exact .extensionContainer h (fun hm => by rw [tagged_iff.2 hm] at h'; cases h')
      · intro h
        cases h with
        | extension h => exact .inl h
        | extensionContainer h h' =>
          refine .inr ⟨h, ?_⟩
          cases ht : y.tagged c!"extension" with
          | false => rfl
          | true => exact absurd (tagged_iff.1 ht) h'
    · exact ⟨False.elim, nofun⟩
  · refine tells_of rfl (fun x y => rule_itself Iff.rfl) ?_ ?_ <;> intro x y
    · exact ⟨False.elim, nofun⟩
    · rw [Bool.or_eq_true, Bool.and_eq_true, decide_eq_true_eq, tagged_iff, called_iff, ← called_one]
      constructor
      · rintro (h | ⟨h, h'⟩)
        · exact .container h
        · exact .containerExtension h h'
      · intro h
        cases h with
        | container h => exact .inl h
        | containerExtension h h' => exact .inr ⟨h, h'⟩
  · refine tells_of rfl (fun x y => rule_other Iff.rfl) ?_ ?_ <;> intro x y
    · rw [called_iff, called_swap]
      exact ⟨fun h => .crc32 h, fun h => by cases h; assumption⟩
    · exact ⟨False.elim, nofun⟩
  · refine tells_of rfl (fun x y => rule_itself Iff.rfl) ?_ ?_ <;> intro x y
    · exact ⟨False.elim, nofun⟩
    · rw [called_iff, called_swap]
      exact ⟨fun h => .uuid h, fun h => by cases h; assumption⟩
  · refine tells_of (f := expectedSolver) rfl (P := fun _ _ => True) (Q := fun _ _ => False) (fun x y => by simp [expectedSolver]) ?_ ?_ <;> intro x y
    · exact ⟨fun _ => .expected, fun _ => trivial⟩
    · exact ⟨False.elim, nofun⟩
  · refine tells_of rfl (fun x y => rule_other Iff.rfl) ?_ ?_ <;> intro x y
    · rw [called_iff]
      exact ⟨fun h => .tv h, fun h => by cases h; assumption⟩
    · exact ⟨False.elim, nofun⟩
  · refine tells_of rfl (fun x y => rule_other Iff.rfl) ?_ ?_ <;> intro x y
    · rw [Bool.and_eq_true, decide_eq_true_eq, called_iff, called_swap]
      exact ⟨fun h => .year h.1 h.2, fun h => by cases h; constructor <;> assumption⟩
    · exact ⟨False.elim, nofun⟩
  · refine tells_of rfl (fun x y => rule_other Iff.rfl) ?_ ?_ <;> intro x y
    · rw [called_iff]
      have : Called y [c!"episode", c!"season", c!"crc32"] ↔ Called y [c!"season", c!"episode", c!"crc32"] := by
        unfold Called
        simp only [List.mem_cons, List.not_mem_nil, or_false, exists_eq_or_imp, exists_eq_left]
        tauto
      rw [this]
      exact ⟨fun h => .date h, fun h => by cases h; assumption⟩
    · exact ⟨False.elim, nofun⟩
  · refine tells_of (f := dtsHdSolver) rfl (P := fun x y => Called y [c!"audio_codec"]) (Q := fun _ _ => False) (fun x y => ?_) ?_ ?_
    · unfold dtsHdSolver
      rw [called_one]
      by_cases h : y.name = some c!"audio_codec" <;> simp [h]
    · intro x y
      exact ⟨fun h => .dtsHd h, fun h => by cases h; assumption⟩
    · intro x y
      exact ⟨False.elim, nofun⟩
  · refine tells_of rfl (fun x y => rule_itself Iff.rfl) ?_ ?_ <;> intro x y
    · exact ⟨False.elim, nofun⟩
    · rw [Bool.and_eq_true, Bool.not_eq_true', called_iff, ← Bool.not_eq_true, tagged_iff]
      exact ⟨fun h => .bonus h.1 h.2, fun h => by cases h; constructor <;> assumption⟩
  · refine tells_of rfl (fun x y => rule_other Iff.rfl) ?_ ?_ <;> intro x y
    · rw [Bool.and_eq_true, decide_eq_true_eq, decide_eq_true_eq, ← called_one]
      exact ⟨fun h => .specialEdition h.1 h.2, fun h => by cases h; constructor <;> assumption⟩
    · exact ⟨False.elim, nofun⟩

theorem tells_choice (B : Bench) : Tells B .fourK ∧ Tells B .size ∧ Tells B .country ∧ Tells B .bitRate := by
  refine ⟨?_, ?_, ?_, ?_⟩
  · refine tells_of (f := fourKSolver) rfl (P := fun _ _ => False) (Q := fun x y => ¬ Called y [c!"screen_size"]) (fun x y => ?_) ?_ ?_
    · unfold fourKSolver
      rw [called_one]
      by_cases h : y.name = some c!"screen_size" <;> simp [h]
    · intro x y
      exact ⟨False.elim, nofun⟩
    · intro x y
      exact ⟨fun h => .fourK h, fun h => by cases h; assumption⟩
  · refine tells_of (f := sizeSolver) rfl (P := fun x y => ¬ Called y [c!"screen_size"]) (Q := fun _ _ => False) (fun x y => ?_) ?_ ?_
    · unfold sizeSolver
      rw [called_one]
      by_cases h : y.name = some c!"screen_size" <;> simp [h]
    · intro x y
      exact ⟨fun h => .size h, fun h => by cases h; assumption⟩
    · intro x y
      exact ⟨False.elim, nofun⟩
  · refine tells_of rfl (fun x y => rule_choice Iff.rfl) ?_ ?_ <;> intro x y
    · rw [Bool.or_eq_true, decide_eq_true_eq, Bool.not_eq_true', not_or, Classical.not_not, Bool.not_eq_false, ← called_one]
      exact ⟨fun h => .country h.1 h.2, fun h => by cases h; constructor <;> assumption⟩
    · rw [Bool.or_eq_true, decide_eq_true_eq, Bool.not_eq_true', ne_eq, ← called_one]
      constructor
      · rintro (h | h)
        · exact .country h
        · exact .countryOther h
      · intro h
        cases h with
        | country h => exact .inl h
        | countryOther h => exact .inr h
  · refine tells_of rfl (fun x y => rule_choice Iff.rfl) ?_ ?_ <;> intro x y
    · rw [Bool.and_eq_true, decide_eq_true_eq, Bool.not_eq_true', ← Bool.not_eq_true, tagged_iff, ← called_one]
      constructor
      · intro h
        by_cases h1 : Called y [c!"audio_channels"]
        · exact .bitRateWeak (Classical.not_not.1 fun h2 => h ⟨h1, h2⟩)
        · exact .bitRate h1
      · rintro h ⟨h1, h2⟩
        cases h with
        | bitRate h => exact h h1
        | bitRateWeak h => exact h2 h
    · rw [Bool.and_eq_true, decide_eq_true_eq, Bool.not_eq_true', ← Bool.not_eq_true, tagged_iff, ← called_one]
      exact ⟨fun h => .bitRate h.1 h.2, fun h => by cases h; constructor <;> assumption⟩

theorem tells_episode (B : Bench) : Tells B .seasonEpisode := by
  intro x y
  show (seasonEpisodeSolver B x y = _ ↔ _) ∧ (seasonEpisodeSolver B x y = _ ↔ _) ∧ seasonEpisodeSolver B x y ≠ _
  unfold seasonEpisodeSolver
  by_cases hn : x.name = y.name
  · rw [if_pos hn]
    have same : ∀ {l l' : List Str}, Called x l → Called y l' → (∀ n ∈ l, n ∉ l') → False := by
      rintro l l' h1 ⟨n, h2, h3⟩ hd
      exact no_names h1 ⟨n, h2, hn.trans h3⟩ hd
    refine ⟨⟨nofun, ?_⟩, ⟨nofun, ?_⟩, by decide⟩
    · intro h
      cases h with
      | episode _ _ h => exact absurd hn h
    · intro h
      cases h with
      | episodeYear h1 h2 => exact (same h1 h2 (by decide)).elim
      | episodeCodec h1 h2 => exact (same h1 h2 (by decide)).elim
      | episodeChannels h1 h2 h3 =>
        refine (same (l := [c!"season", c!"episode"]) ⟨_, ?_, h1⟩ h3 (by decide)).elim
        rcases h2 with rfl | rfl <;> simp
      | episodeSize h1 h2 => exact (same h1 h2 (by decide)).elim
      | episode _ _ h => exact absurd hn h
  · rw [if_neg hn]
    by_cases hy : (decide (x.name = some c!"episode") && decide (y.name = some c!"year")) = true
    · rw [if_pos hy]
      rw [Bool.and_eq_true, decide_eq_true_eq, decide_eq_true_eq, ← called_one, ← called_one] at hy
      refine ⟨⟨nofun, ?_⟩, ⟨fun _ => .episodeYear hy.1 hy.2, fun _ => rfl⟩, by decide⟩
      intro h
      cases h with
      | episode _ h2 => exact (no_names h2 hy.2 (by decide)).elim
    · rw [if_neg hy]
      rw [Bool.and_eq_true, decide_eq_true_eq, decide_eq_true_eq, ← called_one, ← called_one] at hy
      by_cases hx : x.isOneOf [c!"season", c!"episode"] = true
      · rw [if_pos hx]
        rw [called_iff] at hx
        by_cases hc : y.isOneOf [c!"video_codec", c!"audio_codec", c!"container", c!"date"] = true
        · rw [if_pos hc]
          rw [called_iff] at hc
          refine ⟨⟨nofun, ?_⟩, ⟨fun _ => .episodeCodec hx hc, fun _ => rfl⟩, by decide⟩
          intro h
          cases h with
          | episode _ h2 => exact (no_names h2 hc (by decide)).elim
        · rw [if_neg hc]
          rw [called_iff] at hc
          have hmark : marked B x = false ↔ ∀ n, x.name = some n → ∀ c ∈ B.kin.children (B.kin.initiator x), c.name ≠ some (n ++ c!"Marker") := by
            unfold marked
            cases x.name with
            | none => simp
            | some n => simp
          by_cases hs : ((decide (y.name = some c!"audio_channels") && !y.tagged c!"weak-audio_channels" && !marked B x) ||
              (decide (y.name = some c!"screen_size") && !isInt B.uni (y.raw B.input))) = true
          · rw [if_pos hs]
            have hs' : (Called y [c!"audio_channels"] ∧ c!"weak-audio_channels" ∉ y.tags ∧
                ∀ n, x.name = some n → ∀ c ∈ B.kin.children (B.kin.initiator x), c.name ≠ some (n ++ c!"Marker")) ∨
                (Called y [c!"screen_size"] ∧ ¬ Numerical B y) := by
              rw [Bool.or_eq_true, Bool.and_eq_true, Bool.and_eq_true, Bool.and_eq_true, decide_eq_true_eq, decide_eq_true_eq,
                Bool.not_eq_true', Bool.not_eq_true', Bool.not_eq_true', ← called_one, ← called_one, hmark, ← Bool.not_eq_true,
                ← Bool.not_eq_true, tagged_iff, isInt_iff] at hs
              rcases hs with ⟨⟨a, b⟩, c⟩ | h
              · exact .inl ⟨a, b, c⟩
              · exact .inr h
            refine ⟨⟨nofun, ?_⟩, ⟨fun _ => ?_, fun _ => rfl⟩, by decide⟩
            · intro h
              cases h with
              | episode _ h2 =>
                rcases hs' with h3 | h3
                · exact (no_names h2 h3.1 (by decide)).elim
                · exact (no_names h2 h3.1 (by decide)).elim
            · rcases hs' with ⟨h1, h2, h3⟩ | ⟨h1, h2⟩
              · obtain ⟨n, hn1, hn2⟩ := hx
                refine .episodeChannels hn2 ?_ h1 h2 (h3 n hn2)
                simpa using hn1
              · exact .episodeSize hx h1 h2
          · rw [if_neg hs]
            have hs' : ¬ (Called y [c!"audio_channels"] ∧ c!"weak-audio_channels" ∉ y.tags ∧
                ∀ n, x.name = some n → ∀ c ∈ B.kin.children (B.kin.initiator x), c.name ≠ some (n ++ c!"Marker")) ∧
                ¬ (Called y [c!"screen_size"] ∧ ¬ Numerical B y) := by
              rw [Bool.or_eq_true, Bool.and_eq_true, Bool.and_eq_true, Bool.and_eq_true, decide_eq_true_eq, decide_eq_true_eq,
                Bool.not_eq_true', Bool.not_eq_true', Bool.not_eq_true', ← called_one, ← called_one, hmark, ← Bool.not_eq_true,
                ← Bool.not_eq_true, tagged_iff, isInt_iff, not_or] at hs
              exact ⟨fun h => hs.1 ⟨⟨h.1, h.2.1⟩, h.2.2⟩, hs.2⟩
            -- what is left: two parts of season and episode
            have hrest : GivesWay B .seasonEpisode x y → Called y [c!"season", c!"episode"] ∧
                (B.kin.initiator x).key B.input ≠ (B.kin.initiator y).key B.input ∧
                ¬ (Called (B.kin.initiator x) [c!"weak_episode", c!"weak_duplicate"] ∧
                  Called (B.kin.initiator y) [c!"weak_episode", c!"weak_duplicate"]) ∧ Loose B x := by
              intro h
              cases h with
              | episodeYear h1 h2 => exact (hy ⟨h1, h2⟩).elim
              | episodeCodec h1 h2 => exact (hc h2).elim
              | episodeChannels h1 h2 h3 h4 h5 =>
                exact (hs'.1 ⟨h3, h4, fun n hn => by rw [h1] at hn; cases hn; exact h5⟩).elim
              | episodeSize h1 h2 h3 => exact (hs'.2 ⟨h2, h3⟩).elim
              | episode h1 h2 h3 h4 h5 h6 => exact ⟨h2, h4, h5, h6⟩
            have hrest' : Ousts B .seasonEpisode x y → Called y [c!"season", c!"episode"] ∧
                (B.kin.initiator x).key B.input ≠ (B.kin.initiator y).key B.input ∧
                ¬ (Called (B.kin.initiator x) [c!"weak_episode", c!"weak_duplicate"] ∧
                  Called (B.kin.initiator y) [c!"weak_episode", c!"weak_duplicate"]) ∧ ¬ Loose B x ∧ Loose B y := by
              intro h
              cases h with
              | episode h1 h2 h3 h4 h5 h6 h7 => exact ⟨h2, h4, h5, h6, h7⟩
            by_cases he : (y.isOneOf [c!"season", c!"episode"] && !Mt.eqv B.input (B.kin.initiator x) (B.kin.initiator y)) = true
            · rw [if_pos he]
              rw [Bool.and_eq_true, Bool.not_eq_true', ← Bool.not_eq_true, eqv_iff, called_iff] at he
              by_cases hw : (weakInitiator B x && weakInitiator B y) = true
              · rw [if_pos hw]
                rw [Bool.and_eq_true, weakInitiator_iff, weakInitiator_iff] at hw
                exact ⟨⟨nofun, fun h => absurd hw (hrest' h).2.2.1⟩, ⟨nofun, fun h => absurd hw (hrest h).2.2.1⟩,
                  by decide⟩
              · rw [if_neg hw]
                rw [Bool.and_eq_true, weakInitiator_iff, weakInitiator_iff] at hw
                by_cases hf : flimsy B x = true
                · rw [if_pos hf]
                  rw [flimsy_iff] at hf
                  exact ⟨⟨nofun, fun h => absurd hf (hrest' h).2.2.2.1⟩,
                    ⟨fun _ => .episode hx he.1 hn he.2 hw hf, fun _ => rfl⟩, by decide⟩
                · rw [if_neg hf]
                  rw [flimsy_iff] at hf
                  by_cases hg : flimsy B y = true
                  · rw [if_pos hg]
                    rw [flimsy_iff] at hg
                    exact ⟨⟨fun _ => .episode hx he.1 hn he.2 hw hf hg, fun _ => rfl⟩,
                      ⟨nofun, fun h => absurd (hrest h).2.2.2 hf⟩, by decide⟩
                  · rw [if_neg hg]
                    rw [flimsy_iff] at hg
                    exact ⟨⟨nofun, fun h => absurd (hrest' h).2.2.2.2 hg⟩,
                      ⟨nofun, fun h => absurd (hrest h).2.2.2 hf⟩, by decide⟩
            · rw [if_neg he]
              rw [Bool.and_eq_true, Bool.not_eq_true', ← Bool.not_eq_true, eqv_iff, called_iff] at he
              exact ⟨⟨nofun, fun h => absurd ⟨(hrest' h).1, (hrest' h).2.1⟩ he⟩,
                ⟨nofun, fun h => absurd ⟨(hrest h).1, (hrest h).2.1⟩ he⟩, by decide⟩
      · rw [if_neg hx]
        rw [called_iff] at hx
        refine ⟨⟨nofun, ?_⟩, ⟨nofun, ?_⟩, by decide⟩
        · intro h
          cases h with
          | episode h1 => exact absurd h1 hx
        · intro h
          cases h with
          | episodeYear h1 h2 => exact absurd ⟨h1, h2⟩ hy
          | episodeCodec h1 h2 => exact absurd h1 hx
          | episodeChannels h1 h2 h3 h4 h5 =>
            refine absurd ⟨_, ?_, h1⟩ hx
            rcases h2 with rfl | rfl <;> simp
          | episodeSize h1 h2 h3 => exact absurd h1 hx
          | episode h1 => exact absurd h1 hx

/-- **C107.** What the solvers of guessit answer, as a table; none keeps both. -/
theorem C107_table (B : Bench) (t : Trade) (x y : Mt) : (solverFor B t x y = .other ↔ Ousts B t x y) ∧
    (solverFor B t x y = .itself ↔ GivesWay B t x y) ∧ solverFor B t x y ≠ .both := by
  obtain ⟨s1, s2, s3, s4, s5, s6, s7, s8, s9, s10, s11⟩ := tells_simple B
  obtain ⟨c1, c2, c3, c4⟩ := tells_choice B
  have h1 := tells_audioCodec B
  have h2 := tells_episode B
  cases t
  exacts [h1 x y, h2 x y, s1 x y, s2 x y, s3 x y, s4 x y, s5 x y, s6 x y, s7 x y, s8 x y, c1 x y, c2 x y, c3 x y, s9 x y, c4 x y,
    s10 x y, s11 x y]

/-- The solver of `x` says nothing about `x` and `y`. -/
def Spec.Silently (B : Bench) (trade : Mt → Option Trade) (x y : Mt) : Prop :=
  ∀ t, trade x = some t → ¬ Ousts B t x y ∧ ¬ GivesWay B t x y

theorem abstains_trade {B : Bench} {trade : Mt → Option Trade} {x y : Mt} :
    Abstains ((trade x).map (solverFor B)) x y ↔ Silently B trade x y := by
  unfold Abstains Silently
  cases h : trade x with
  | none => simp
  | some t =>
    simp only [Option.map_some, Option.some.injEq, forall_eq']
    obtain ⟨h1, h2, h3⟩ := C107_table B t x y
    rw [← h1, ← h2]
    cases hs : solverFor B t x y
    · simp
    · simp
    · exact absurd hs h3
    · simp

theorem wants_trade {B : Bench} {trade : Mt → Option Trade} {x y z : Mt} : Wants ((trade x).map (solverFor B)) x y z ↔
    ∃ t, trade x = some t ∧ ((GivesWay B t x y ∧ z = x) ∨ (Ousts B t x y ∧ z = y)) := by
  unfold Wants
  cases h : trade x with
  | none => simp
  | some t =>
    simp only [Option.map_some, Option.some.injEq, exists_eq_left']
    rw [(C107_table B t x y).1, (C107_table B t x y).2.1]

/-- **C107.** After conflicts are solved, two reported matches overlap only when neither has a claim on the other and what they
were found with has the same length. -/
theorem C107_apart {s : Ms} (h : Sound s) (B : Bench) (trade : Mt → Option Trade) {x y : Mt} (hc : Clash s x y)
    (hx : x ∈ (solveAll B trade s).live) (hy : y ∈ (solveAll B trade s).live) :
    Silently B trade x y ∧ Silently B trade y x ∧ (B.kin.initiator x).len = (B.kin.initiator y).len := by
  have key := C106_settled h B.kin (fun m => (trade m).map (solverFor B)) hc hx hy
  have hsx : Silently B trade x y := by
    intro t ht
    constructor <;> intro ho
    · exact (key y).1 (.first (wants_trade.2 ⟨t, ht, .inr ⟨ho, rfl⟩⟩))
    · exact (key x).1 (.first (wants_trade.2 ⟨t, ht, .inl ⟨ho, rfl⟩⟩))
  have hsy : Silently B trade y x := by
    intro t ht
    constructor <;> intro ho
    · exact (key x).2 (.first (wants_trade.2 ⟨t, ht, .inr ⟨ho, rfl⟩⟩))
    · exact (key y).2 (.first (wants_trade.2 ⟨t, ht, .inl ⟨ho, rfl⟩⟩))
  refine ⟨hsx, hsy, ?_⟩
  rcases Nat.lt_trichotomy (B.kin.initiator x).len (B.kin.initiator y).len with hl | hl | hl
  · exact absurd (.shorterFirst (abstains_trade.2 hsx) (abstains_trade.2 hsy) hl) (key x).1
  · exact hl
  · exact absurd (.shorterSecond (abstains_trade.2 hsx) (abstains_trade.2 hsy) hl) (key y).1

/-- The reasons for dropping `x` in favour of `y`. -/
inductive Spec.Reason (B : Bench) (trade : Mt → Option Trade) (x y : Mt) : Prop
  | givesWay (t : Trade) : trade x = some t → GivesWay B t x y → Reason B trade x y
  | ousted (t : Trade) : trade y = some t → Ousts B t y x → Reason B trade x y
  | shorter : Silently B trade x y → Silently B trade y x → (B.kin.initiator x).len < (B.kin.initiator y).len → Reason B trade x y

theorem yields_reason {B : Bench} {trade : Mt → Option Trade} {x y : Mt} (hne : x ≠ y)
    (h : Yields B.kin (fun m => (trade m).map (solverFor B)) x y) : Reason B trade x y := by
  rcases h with h | h
  · cases h with
    | first h =>
      obtain ⟨t, ht, ⟨hg, _⟩ | ⟨_, he⟩⟩ := wants_trade.1 h
      · exact .givesWay t ht hg
      · exact absurd he hne
    | second _ h =>
      obtain ⟨t, ht, ⟨_, he⟩ | ⟨ho, _⟩⟩ := wants_trade.1 h
      · exact absurd he hne
      · exact .ousted t ht ho
    | shorterFirst h1 h2 h3 => exact .shorter (abstains_trade.1 h1) (abstains_trade.1 h2) h3
    | shorterSecond => exact absurd rfl hne
  · cases h with
    | first h =>
      obtain ⟨t, ht, ⟨_, he⟩ | ⟨ho, _⟩⟩ := wants_trade.1 h
      · exact absurd he hne
      · exact .ousted t ht ho
    | second _ h =>
      obtain ⟨t, ht, ⟨hg, _⟩ | ⟨_, he⟩⟩ := wants_trade.1 h
      · exact .givesWay t ht hg
      · exact absurd he hne
    | shorterFirst => exact absurd rfl hne
    | shorterSecond h1 h2 h3 => exact .shorter (abstains_trade.1 h2) (abstains_trade.1 h1) h3

/-- **C107.** A match is dropped only for a match it overlaps: because it gives way to it, is ousted by it, or is shorter than it
and neither has a claim. -/
theorem C107_dropped {s : Ms} (h : Sound s) (B : Bench) (trade : Mt → Option Trade) {x : Mt} (hx : x ∈ s.live)
    (hg : x ∉ (solveAll B trade s).live) : ∃ y, Clash s x y ∧ Reason B trade x y := by
  obtain ⟨z, -, hz⟩ := C106_reason h B.kin (fun m => (trade m).map (solverFor B)) hx hg
  obtain ⟨y, hy, -⟩ := Relation.TransGen.head'_iff.1 hz
  exact ⟨y, hy.1, yields_reason hy.1.differ hy.2⟩

/-- **C107.** An expected title or group that is left overlaps nothing; it is dropped only in favour of a size such as 1920x1080,
a bit rate, a television source (for a group), or another expected one. -/
theorem C107_expected {s : Ms} (h : Sound s) (B : Bench) (trade : Mt → Option Trade)
    (hfit : ∀ m ∈ s.live, ∀ t, trade m = some t → Fits t m) {x : Mt} (hx : x ∈ s.live) (ht : trade x = some .expected) :
    (x ∈ (solveAll B trade s).live → ∀ y ∈ (solveAll B trade s).live, ¬ Clash s x y) ∧
    (x ∉ (solveAll B trade s).live → ∃ y, Clash s x y ∧ (trade y = some .size ∨ trade y = some .bitRate ∨ trade y = some .expected ∨
      (trade y = some .tv ∧ x.name = some c!"release_group"))) := by
  constructor
  · intro hk y hy hc
    exact ((C107_apart h B trade hc hk hy).1 .expected ht).1 .expected
  · intro hg
    obtain ⟨y, hc, hr⟩ := C107_dropped h B trade hx hg
    refine ⟨y, hc, ?_⟩
    have hfx := hfit x hx _ ht
    cases hr with
    | givesWay t ht' hw => rw [ht] at ht'; cases ht'; cases hw
    | ousted t ht' ho =>
      cases ho with
      | audioCodec _ h2 => exact (no_names hfx h2 (by decide)).elim
      | episode _ h2 => exact (no_names hfx h2 (by decide)).elim
      | extension h2 => exact (no_names hfx h2 (by decide)).elim
      | extensionContainer h2 => exact (no_names hfx h2 (by decide)).elim
      | crc32 h2 => exact (no_names hfx h2 (by decide)).elim
      | expected => exact .inr (.inr (.inl ht'))
      | tv h2 =>
        refine .inr (.inr (.inr ⟨ht', ?_⟩))
        obtain ⟨n, h3, h4⟩ := h2
        obtain ⟨n', h3', h4'⟩ := hfx
        rw [h4] at h4'; cases h4'
        simp only [List.mem_cons, List.not_mem_nil, or_false] at h3 h3'
        rcases h3 with rfl | rfl
        · rcases h3' with h | h <;> cases h
        · exact h4
      | year h2 => exact (no_names hfx h2 (by decide)).elim
      | date h2 => exact (no_names hfx h2 (by decide)).elim
      | size => exact .inl ht'
      | country h2 => exact (no_names hfx h2 (by decide)).elim
      | dtsHd h2 => exact (no_names hfx h2 (by decide)).elim
      | bitRate => exact .inr (.inl ht')
      | bitRateWeak => exact .inr (.inl ht')
      | specialEdition h2 => exact (no_names hfx h2 (by decide)).elim
    | shorter h1 => exact absurd .expected (h1 .expected ht).1

/-- The names of the matches of a trade. -/
def tradeNames : Trade → List Str
    | .audioCodec | .dtsHd => [c!"audio_codec"]
    | .seasonEpisode => [c!"season", c!"episode", c!"other", c!"count", c!"version", c!"episode_details", c!"episode_format",
        c!"episodeMarker", c!"seasonMarker"]
    | .extension | .container => [c!"container"]
    | .crc32 => [c!"crc32"]
    | .uuid => [c!"uuid"]
    | .expected => [c!"title", c!"release_group"]
    | .tv => [c!"source", c!"other"]
    | .year => [c!"year", c!"week"]
    | .date => [c!"date"]
    | .fourK | .size => [c!"screen_size"]
    | .country => [c!"country"]
    | .bitRate => [c!"audio_bit_rate"]
    | .bonus => [c!"bonus"]
    | .specialEdition => [c!"edition"]

theorem fits_called {t : Trade} {m : Mt} (h : Fits t m) : Called m (tradeNames t) := by
  cases t <;> first | exact h | exact h.1

/-- Two claims against one another: the first match gives way and so does the second, or each ousts the other. -/
def Spec.Contradict (B : Bench) (t u : Trade) (x y : Mt) : Prop :=
  (GivesWay B t x y ∧ GivesWay B u y x) ∨ (Ousts B t x y ∧ Ousts B u y x)

/-- The trades whose matches a match of a trade can give way to. -/
def mayGive : Trade → Trade → Bool
  | .seasonEpisode, u => [Trade.year, .audioCodec, .dtsHd, .container, .extension, .date, .fourK, .size, .seasonEpisode].contains u
  | .container, u => [Trade.tv, .extension].contains u
  | .uuid, u => u == .seasonEpisode
  | .fourK, u => u != .fourK && u != .size
  | .country, _ => true
  | .bonus, u => u == .seasonEpisode
  | _, _ => false

/-- The trades whose matches a match of a trade can oust. -/
def mayOust : Trade → Trade → Bool
  | .seasonEpisode, u => u == .seasonEpisode
  | .extension, u => [Trade.tv, .container].contains u
  | .crc32, u => u == .seasonEpisode
  | .expected, _ => true
  | .tv, u => [Trade.tv, .expected, .seasonEpisode].contains u
  | .year, u => u == .seasonEpisode
  | .date, u => [Trade.seasonEpisode, .crc32].contains u
  | .size, u => u != .fourK && u != .size
  | .dtsHd, u => [Trade.audioCodec, .dtsHd].contains u
  | .bitRate, _ => true
  | .specialEdition, u => u == .seasonEpisode
  | _, _ => false

theorem givesWay_may {B : Bench} {t u : Trade} {x y : Mt} (hx : Fits t x) (hy : Fits u y) (h : GivesWay B t x y) :
    mayGive t u = true := by
  have hx' := fits_called hx
  have hy' := fits_called hy
  cases h with
  | audioCodec h1 h2 => exact (no_names hx' h1 (by decide)).elim
  | episodeYear h1 h2 => cases u <;> first | rfl | exact (no_names hy' h2 (by decide)).elim
  | episodeCodec h1 h2 => cases u <;> first | rfl | exact (no_names hy' h2 (by decide)).elim
  | episodeChannels h1 h2 h3 => cases u <;> first | rfl | exact (no_names hy' h3 (by decide)).elim
  | episodeSize h1 h2 => cases u <;> first | rfl | exact (no_names hy' h2 (by decide)).elim
  | episode h1 h2 => cases u <;> first | rfl | exact (no_names hy' h2 (by decide)).elim
  | container h2 => cases u <;> first | rfl | exact (no_names hy' h2 (by decide)).elim
  | containerExtension h2 h3 => cases u <;> first | rfl | exact (no_names hy' h2 (by decide)).elim | exact absurd h3 hy.2
  | uuid h2 => cases u <;> first | rfl | exact (no_names hy' h2 (by decide)).elim
  | fourK h2 => cases u <;> first | rfl | exact absurd hy' h2
  | country h2 => rfl
  | countryOther h2 => rfl
  | bitRate h2 => cases u <;> first | rfl | exact (no_names hy' h2 (by decide)).elim
  | bonus h2 => cases u <;> first | rfl | exact (no_names hy' h2 (by decide)).elim

theorem ousts_may {B : Bench} {t u : Trade} {x y : Mt} (hy : Fits u y) (h : Ousts B t x y) : mayOust t u = true := by
  have hy' := fits_called hy
  cases h with
  | audioCodec h1 h2 => cases u <;> first | rfl | exact (no_names hy' h2 (by decide)).elim
  | episode h1 h2 => cases u <;> first | rfl | exact (no_names hy' h2 (by decide)).elim
  | extension h2 => cases u <;> first | rfl | exact (no_names hy' h2 (by decide)).elim
  | extensionContainer h2 h3 => cases u <;> first | rfl | exact (no_names hy' h2 (by decide)).elim | exact absurd hy.2 h3
  | crc32 h2 => cases u <;> first | rfl | exact (no_names hy' h2 (by decide)).elim
  | expected => rfl
  | tv h2 => cases u <;> first | rfl | exact (no_names hy' h2 (by decide)).elim
  | year h2 => cases u <;> first | rfl | exact (no_names hy' h2 (by decide)).elim
  | date h2 => cases u <;> first | rfl | exact (no_names hy' h2 (by decide)).elim
  | size h2 => cases u <;> first | rfl | exact absurd hy' h2
  | country h2 => cases u <;> first | rfl | exact (no_names hy' h2 (by decide)).elim
  | dtsHd h2 => cases u <;> first | rfl | exact (no_names hy' h2 (by decide)).elim
  | bitRate h2 => rfl
  | bitRateWeak h2 => rfl
  | specialEdition h2 => cases u <;> first | rfl | exact (no_names hy' h2 (by decide)).elim

theorem contradict_quarrel {B : Bench} {t u : Trade} {x y : Mt} (hx : Fits t x) (hy : Fits u y) (h : Contradict B t u x y) :
    Quarrel t u ∨ Quarrel u t := by
  have hm : (mayGive t u && mayGive u t || mayOust t u && mayOust u t) = true := by
    rcases h with ⟨h1, h2⟩ | ⟨h1, h2⟩
    · rw [givesWay_may hx hy h1, givesWay_may hy hx h2]; rfl
    · rw [ousts_may hy h1, ousts_may hx h2]; simp
  clear h hx hy
  cases t <;> cases u <;> first
    | exact absurd hm (by decide)
    | exact .inl .episodes | exact .inl .fourKEpisode | exact .inr .fourKEpisode | exact .inl .fourKCountry
    | exact .inr .fourKCountry | exact .inl .countries | exact .inl .sizeExpected | exact .inr .sizeExpected
    | exact .inl .sizeBitRate | exact .inr .sizeBitRate | exact .inl .bitRates | exact .inl .expected
    | exact .inl .expectedBitRate | exact .inr .expectedBitRate | exact .inl .tvExpected | exact .inr .tvExpected
    | exact .inl .tvs | exact .inl .dtsHds

/-- The outcome does not depend on who is asked first. -/
def Spec.Fair (B : Bench) (trade : Mt → Option Trade) (x y : Mt) : Prop :=
  ∀ z, Judged B.kin (fun m => (trade m).map (solverFor B)) x y z ↔ Judged B.kin (fun m => (trade m).map (solverFor B)) y x z

theorem judged_swap {B : Bench} {trade : Mt → Option Trade} {x y z : Mt}
    (hno : ∀ t u, trade x = some t → trade y = some u → ¬ Contradict B t u x y)
    (h : Judged B.kin (fun m => (trade m).map (solverFor B)) x y z) : Judged B.kin (fun m => (trade m).map (solverFor B)) y x z := by
  cases h with
  | first h =>
    obtain ⟨t, ht, hg⟩ := wants_trade.1 h
    by_cases hs : Silently B trade y x
    · exact .second (abstains_trade.2 hs) h
    · have : ∃ u, trade y = some u ∧ (Ousts B u y x ∨ GivesWay B u y x) := by
        unfold Silently at hs
        simp only [not_forall] at hs
        obtain ⟨u, hu, hn⟩ := hs
        exact ⟨u, hu, by tauto⟩
      obtain ⟨u, hu, ho⟩ := this
      refine .first (wants_trade.2 ⟨u, hu, ?_⟩)
      rcases hg with ⟨hg, rfl⟩ | ⟨hg, rfl⟩
      · rcases ho with ho | ho
        · exact .inr ⟨ho, rfl⟩
        · exact absurd (.inl ⟨hg, ho⟩) (hno t u ht hu)
      · rcases ho with ho | ho
        · exact absurd (.inr ⟨hg, ho⟩) (hno t u ht hu)
        · exact .inl ⟨ho, rfl⟩
  | second _ h => exact .first h
  | shorterFirst h1 h2 h3 => exact .shorterSecond h2 h1 h3
  | shorterSecond h1 h2 h3 => exact .shorterFirst h2 h1 h3

/-- **C107.** The outcome between two matches depends on who is asked first only for the trades that quarrel. -/
theorem C107_fair (B : Bench) (trade : Mt → Option Trade) {x y : Mt} (hx : ∀ t, trade x = some t → Fits t x)
    (hy : ∀ t, trade y = some t → Fits t y)
    (hq : ∀ t u, trade x = some t → trade y = some u → ¬ Quarrel t u ∧ ¬ Quarrel u t) : Fair B trade x y := by
  intro z
  constructor
  · refine judged_swap fun t u ht hu hc => ?_
    rcases contradict_quarrel (hx t ht) (hy u hu) hc with h | h
    exacts [(hq t u ht hu).1 h, (hq t u ht hu).2 h]
  · refine judged_swap fun t u ht hu hc => ?_
    rcases contradict_quarrel (hy t ht) (hx u hu) hc with h | h
    exacts [(hq u t hu ht).2 h, (hq u t hu ht).1 h]

theorem contradict_unfair {B : Bench} {trade : Mt → Option Trade} {x y : Mt} {t u : Trade} (ht : trade x = some t) (hu : trade y = some u)
    (hne : x ≠ y) (hc : Contradict B t u x y) : ¬ Fair B trade x y := by
  intro hf
  rcases hc with ⟨h1, h2⟩ | ⟨h1, h2⟩
  · have a := (hf x).1 (.first (wants_trade.2 ⟨t, ht, .inl ⟨h1, rfl⟩⟩))
    have b : Judged B.kin (fun m => (trade m).map (solverFor B)) y x y := .first (wants_trade.2 ⟨u, hu, .inl ⟨h2, rfl⟩⟩)
    have := (loser_iff.2 a).symm.trans (loser_iff.2 b)
    cases this
    exact hne rfl
  · have a := (hf y).1 (.first (wants_trade.2 ⟨t, ht, .inr ⟨h1, rfl⟩⟩))
    have b : Judged B.kin (fun m => (trade m).map (solverFor B)) y x x := .first (wants_trade.2 ⟨u, hu, .inr ⟨h2, rfl⟩⟩)
    have := (loser_iff.2 a).symm.trans (loser_iff.2 b)
    cases this
    exact hne rfl

/-- A bench for examples: no value is a country. -/
def demoBench : Bench := { uni := asciiUni, input := c!"abcdef", kin := selfKin, usGb := fun _ => false }

/-- Two overlapping matches. -/
def demoPair (a b : Str) (tags tags' : List Str) : Mt × Mt :=
  ({ id := 1, start := 0, stop := 3, name := some a, tags := tags }, { id := 2, start := 2, stop := 5, name := some b, tags := tags' })

theorem demo_unfair {t u : Trade} (a b : Str) (tags tags' : List Str) (hx : Fits t (demoPair a b tags tags').1)
    (hy : Fits u (demoPair a b tags tags').2)
    (hc : Contradict demoBench t u (demoPair a b tags tags').1 (demoPair a b tags tags').2) :
    ∃ (B : Bench) (trade : Mt → Option Trade) (x y : Mt), trade x = some t ∧ trade y = some u ∧ Fits t x ∧ Fits u y ∧ ¬ Fair B trade x y :=
  ⟨demoBench, fun m => if m.id = 1 then some t else some u, _, _, rfl, rfl, hx, hy,
    contradict_unfair rfl rfl (fun h => absurd (congrArg Mt.id h) (show ¬ (1 = 2) by decide)) hc⟩

theorem called_demo {m : Mt} {n : Str} {l : List Str} (h : m.name = some n) (hl : n ∈ l) : Called m l := ⟨n, hl, h⟩

theorem not_called_demo {m : Mt} {n : Str} {l : List Str} (h : m.name = some n) (hl : n ∉ l) : ¬ Called m l := by
  rintro ⟨n', h1, h2⟩
  rw [h] at h2; cases h2
  exact hl h1

/-- **C107.** Each trade listed as quarrelling has two matches for which it matters who is asked first. -/
theorem C107_unfair {t u : Trade} (h : Quarrel t u) : ∃ (B : Bench) (trade : Mt → Option Trade) (x y : Mt), trade x = some t ∧
    trade y = some u ∧ Fits t x ∧ Fits u y ∧ ¬ Fair B trade x y := by
  cases h with
  | episodes =>
    refine demo_unfair c!"season" c!"episode" [c!"weak-episode"] [c!"weak-episode"] (called_demo rfl (by decide)) (called_demo rfl (by decide))
      (.inl ⟨.episode (called_demo rfl (by decide)) (called_demo rfl (by decide)) (by decide) (by decide) ?_ (.inl (by decide)),
        .episode (called_demo rfl (by decide)) (called_demo rfl (by decide)) (by decide) (by decide) ?_ (.inl (by decide))⟩)
    · rintro ⟨h1, _⟩
      exact not_called_demo (n := c!"season") rfl (by decide) h1
    · rintro ⟨_, h1⟩
      exact not_called_demo (n := c!"season") rfl (by decide) h1
  | fourKEpisode =>
    refine demo_unfair c!"screen_size" c!"episode" [] [] (called_demo rfl (by decide)) (called_demo rfl (by decide))
      (.inl ⟨.fourK (not_called_demo rfl (by decide)), .episodeSize (called_demo rfl (by decide)) (called_demo rfl (by decide)) ?_⟩)
    intro hn
    exact absurd (isInt_iff.2 hn) (by decide)
  | fourKCountry =>
    exact demo_unfair c!"screen_size" c!"country" [] [] (called_demo rfl (by decide)) (called_demo rfl (by decide))
      (.inl ⟨.fourK (not_called_demo rfl (by decide)), .country (not_called_demo rfl (by decide))⟩)
  | countries =>
    exact demo_unfair c!"country" c!"country" [] [] (called_demo rfl (by decide)) (called_demo rfl (by decide))
      (.inl ⟨.country (not_called_demo rfl (by decide)), .country (not_called_demo rfl (by decide))⟩)
  | sizeExpected =>
    exact demo_unfair c!"screen_size" c!"title" [] [] (called_demo rfl (by decide)) (called_demo rfl (by decide))
      (.inr ⟨.size (not_called_demo rfl (by decide)), .expected⟩)
  | sizeBitRate =>
    exact demo_unfair c!"screen_size" c!"audio_bit_rate" [] [] (called_demo rfl (by decide)) (called_demo rfl (by decide))
      (.inr ⟨.size (not_called_demo rfl (by decide)), .bitRate (not_called_demo rfl (by decide))⟩)
  | bitRates =>
    exact demo_unfair c!"audio_bit_rate" c!"audio_bit_rate" [] [] (called_demo rfl (by decide)) (called_demo rfl (by decide))
      (.inr ⟨.bitRate (not_called_demo rfl (by decide)), .bitRate (not_called_demo rfl (by decide))⟩)
  | expected =>
    exact demo_unfair c!"title" c!"release_group" [] [] (called_demo rfl (by decide)) (called_demo rfl (by decide))
      (.inr ⟨.expected, .expected⟩)
  | expectedBitRate =>
    exact demo_unfair c!"title" c!"audio_bit_rate" [] [] (called_demo rfl (by decide)) (called_demo rfl (by decide))
      (.inr ⟨.expected, .bitRate (not_called_demo rfl (by decide))⟩)
  | tvExpected =>
    exact demo_unfair c!"source" c!"release_group" [] [] (called_demo rfl (by decide)) (called_demo rfl (by decide))
      (.inr ⟨.tv (called_demo rfl (by decide)), .expected⟩)
  | tvs =>
    exact demo_unfair c!"other" c!"other" [] [] (called_demo rfl (by decide)) (called_demo rfl (by decide))
      (.inr ⟨.tv (called_demo rfl (by decide)), .tv (called_demo rfl (by decide))⟩)
  | dtsHds =>
    exact demo_unfair c!"audio_codec" c!"audio_codec" [] [] (called_demo rfl (by decide)) (called_demo rfl (by decide))
      (.inr ⟨.dtsHd (called_demo rfl (by decide)), .dtsHd (called_demo rfl (by decide))⟩)

/-! ### A concrete state: an expected title over a year -/

/-- The year and the title found. -/
def demoYear : Mt := { id := 1, start := 0, stop := 4, name := some c!"year" }
def demoExpected : Mt := { id := 2, start := 0, stop := 4, name := some c!"title" }

/-- `expected_title = "2012"` in `2012.mkv`. -/
def demoConflict : Ms where
  input := c!"2012.mkv"
  live := [demoYear, demoExpected]
  markers := []

/-- The patterns that found them. -/
def demoTrade : Mt → Option Trade := fun m => if m.id = 1 then some .year else some .expected

theorem demoConflict_sound : Sound demoConflict where
  wf := by intro m hm; simp only [demoConflict, List.mem_cons, List.not_mem_nil, or_false] at hm; rcases hm with rfl | rfl <;> decide
  distinct := by decide

example : (∀ m ∈ demoConflict.live, ∀ t, demoTrade m = some t → Fits t m) ∧
    Clash demoConflict demoYear demoExpected ∧
    Alone demoConflict demoYear demoExpected ∧
    Sooner demoConflict demoYear demoExpected ∧
    ((solveAll { demoBench with input := c!"2012.mkv" } demoTrade demoConflict).live.map Mt.id = [2]) := by
  refine ⟨?_, ?_, ?_, ?_, by decide +kernel⟩
  · intro m hm t ht
    simp only [demoConflict, List.mem_cons, List.not_mem_nil, or_false] at hm
    rcases hm with rfl | rfl
    · cases ht; exact called_demo rfl (by decide)
    · cases ht; exact called_demo rfl (by decide)
  · exact ⟨by simp [demoConflict], by simp [demoConflict], rfl, rfl, fun h => absurd (congrArg Mt.id h) (by decide), 0, by decide, by decide,
      by decide, by decide⟩
  · intro z
    constructor
    · rintro ⟨_, h, _, _, hd, _⟩
      simp only [demoConflict, List.mem_cons, List.not_mem_nil, or_false] at h
      rcases h with rfl | rfl
      · exact absurd rfl hd
      · rfl
    · rintro ⟨_, h, _, _, hd, _⟩
      simp only [demoConflict, List.mem_cons, List.not_mem_nil, or_false] at h
      rcases h with rfl | rfl
      · rfl
      · exact absurd rfl hd
  · exact .inr ⟨rfl, List.Sublist.refl _⟩

end Guessit
