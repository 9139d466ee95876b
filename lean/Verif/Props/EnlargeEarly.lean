import Verif.Props.Enlarge
import Verif.Props.EngineTrace

/-! # What `EnlargeGroupMatches` leaves of each match, whatever the matches are -/

namespace Guessit
open Spec

/-! ### `EnlargeGroupMatches` -/

/-- What the first rules find. -/
structure Early (s : Ms) : Prop where
  ids : (s.live.map Mt.id).Nodup
  raw : ∀ m ∈ s.live, m.rawStart = none ∧ m.rawStop = none
  groups : ∀ g ∈ s.markers, g.name = some c!"group" → g.start < g.stop ∧ g.stop ≤ s.input.length
  starts : ((named s.markers c!"group").map Mt.start).Nodup
  stops : ((named s.markers c!"group").map Mt.stop).Nodup

/-- What a match has become while the ends are moved. -/
structure Drawn' (len : Nat) (done done' : List Nat) (y x : Mt) : Prop where
  id : x.id = y.id
  name : x.name = y.name
  priv : x.priv = y.priv
  val : x.val = y.val
  fmt : x.fmt = y.fmt
  left : x.rawA = y.rawA
  right : x.rawB = y.rawB
  first : x.rawStart = none ∨ x.id ∈ done
  last : x.rawStop = none ∨ x.id ∈ done'
  start : x.start ≤ y.start
  stop : x.stop = y.stop ∨ y.stop ≤ x.stop ∧ x.stop ≤ len

theorem early_fold {s : Ms} {f : List Mt → Mt → List Mt} {upd : Mt → Mt} (hf : ∀ l m, ∀ x ∈ f l m, x ∈ l ∨ x = upd (current l m))
    (D : List Nat → Mt → Mt → Prop) (hrefl : ∀ m ∈ s.live, D [] m m) (hid : ∀ d y x, D d y x → x.id = y.id)
    (hmore : ∀ d d' y x, D d y x → (∀ i ∈ d, i ∈ d') → D d' y x) (hids : (s.live.map Mt.id).Nodup) :
    ∀ {ms : List Mt} {l : List Mt} {d : List Nat}, (∀ m ∈ ms, m ∈ s.live) → (ms.map Mt.id).Nodup → (∀ m ∈ ms, m.id ∉ d) →
    (∀ m ∈ ms, ∀ d x, m.id ∉ d → D d m x → D (m.id :: d) m (upd x)) →
    (∀ x ∈ l, ∃ y ∈ s.live, D d y x) → ∀ x ∈ ms.foldl f l, ∃ d', ∃ y ∈ s.live, D d' y x := by
  intro ms
  induction ms with
  | nil => intro l d _ _ _ _ h x hx; exact ⟨d, h x hx⟩
  | cons m ms ih =>
    intro l d hms hnd hd hu hl
    rw [List.map_cons, List.nodup_cons] at hnd
    have hcur : D d m (current l m) := by
      unfold current
      cases hfi : l.find? fun x => decide (x.id = m.id) with
      | none => exact hmore _ _ _ _ (hrefl m (hms m (by simp))) (by simp)
      | some z =>
        obtain ⟨y, hy, hz⟩ := hl z (List.mem_of_find?_eq_some hfi)
        have h1 : z.id = m.id := by simpa using List.find?_some hfi
        have : y = m := List.inj_on_of_nodup_map hids hy (hms m (by simp)) (by rw [← hid _ _ _ hz, h1])
        exact this ▸ hz
    refine ih (d := m.id :: d) (fun x hx => hms x (by simp [hx])) hnd.2 (fun x hx hh => ?_) (fun x hx => hu x (by simp [hx])) fun x hx => ?_
    · rcases List.mem_cons.1 hh with hh | hh
      · exact hnd.1 (hh ▸ List.mem_map_of_mem hx)
      · exact hd x (by simp [hx]) hh
    · rcases hf l m x hx with h | rfl
      · obtain ⟨y, hy, hk⟩ := hl x h
        exact ⟨y, hy, hmore _ _ _ _ hk fun i hi => by simp [hi]⟩
      · exact ⟨m, hms m (by simp), hu m (by simp) _ _ (hd m (by simp)) hcur⟩

theorem early_starting {s : Ms} (hs : Early s) : ((enlargeStarting s).map Mt.id).Nodup ∧ ∀ m ∈ enlargeStarting s, m ∈ s.live ∧ 1 ≤ m.start := by
  constructor
  · refine nodup_flatMap_sel (fun g => g.start + 1) Mt.start ?_ hs.ids
    have := hs.starts
    rw [show (fun g : Mt => g.start + 1) = (fun n => n + 1) ∘ Mt.start from rfl, ← List.map_map]
    exact this.map (fun a b h => by simpa using h)
  · intro m hm
    obtain ⟨g, _, hm⟩ := List.mem_flatMap.1 hm
    have := List.mem_filter.1 hm
    have h2 : m.start = g.start + 1 := by simpa using this.2
    exact ⟨this.1, by omega⟩

theorem early_ending {s : Ms} (hs : Early s) : ((enlargeEnding s).map Mt.id).Nodup ∧ ∀ m ∈ enlargeEnding s, m ∈ s.live ∧ m.stop + 1 ≤ s.input.length := by
  constructor
  · refine nodup_flatMap_sel (fun g => g.stop - 1) Mt.stop ?_ hs.ids
    refine List.Nodup.map_on ?_ (List.Nodup.of_map _ hs.stops)
    intro a ha b hb h
    have h1 := (hs.groups a (mem_named.1 ha).1 (mem_named.1 ha).2).1
    have h2 := (hs.groups b (mem_named.1 hb).1 (mem_named.1 hb).2).1
    have h3 : a.stop = b.stop := by omega
    exact List.inj_on_of_nodup_map hs.stops ha hb h3
  · intro m hm
    obtain ⟨g, hg, hm⟩ := List.mem_flatMap.1 hm
    have h0 := hs.groups g (mem_named.1 hg).1 (mem_named.1 hg).2
    have := List.mem_filter.1 hm
    have h2 : m.stop = g.stop - 1 := by simpa using this.2
    exact ⟨this.1, by omega⟩

theorem early_refl {s : Ms} (hs : Early s) {m : Mt} (hm : m ∈ s.live) : Drawn' s.input.length [] [] m m :=
  ⟨rfl, rfl, rfl, rfl, rfl, rfl, rfl, Or.inl (hs.raw m hm).1, Or.inl (hs.raw m hm).2, Nat.le_refl _, Or.inl rfl⟩

theorem early_enlarge {s : Ms} (hs : Early s) : ∀ x ∈ (enlargeGroupMatches s).live, ∃ d d', ∃ y ∈ s.live, Drawn' s.input.length d d' y x := by
  have h1 : ∀ x ∈ (enlargeStarting s).foldl (enlargeStart s.input) s.live, ∃ d, ∃ y ∈ s.live, Drawn' s.input.length d [] y x := by
    refine early_fold (upd := updS) (D := fun d y x => Drawn' s.input.length d [] y x) (d := []) (fun l m x hx => ?_) (fun m hm => early_refl hs hm) (fun _ _ _ h => h.id)
      (fun _ _ _ _ h hd => { h with first := h.first.imp id (hd _) }) hs.ids (fun m hm => ((early_starting hs).2 m hm).1) (early_starting hs).1
      (fun _ _ h => absurd h List.not_mem_nil) (fun m hm d x hd h => ?_) fun m hm => ⟨m, hm, early_refl hs hm⟩
    · rcases List.mem_append.1 hx with hx | hx
      · exact Or.inl (mem_removeMatch hx)
      · exact Or.inr (List.mem_singleton.1 hx)
    · have hn : x.rawStart = none := h.first.resolve_right fun hh => hd (h.id ▸ hh)
      obtain ⟨hm1, hm2⟩ := (early_starting hs).2 m hm
      have hx : x.rawA = x.start := by simp [Mt.rawA, hn]
      have hy : m.rawA = m.start := by simp [Mt.rawA, (hs.raw m hm1).1]
      have hst : x.start = m.start := by rw [← hx, h.left, hy]
      refine ⟨h.id, h.name, h.priv, h.val, h.fmt, ?_, h.right, Or.inr ?_, h.last, ?_, h.stop⟩
      · rw [hy]
        simp only [updS, Mt.rawA, hn, Option.getD_some, Option.getD_none]
        omega
      · have : (updS x).id = m.id := h.id
        rw [this]
        exact List.mem_cons_self
      · have : (updS x).start = x.start - 1 := rfl
        omega
  obtain h2 := early_fold (s := s) (f := enlargeEnd s.input) (upd := updE) (D := fun d y x => ∃ d0, Drawn' s.input.length d0 d y x) (d := []) (fun l m x hx => by
      rcases List.mem_append.1 hx with hx | hx
      · exact Or.inl (mem_removeMatch hx)
      · exact Or.inr (List.mem_singleton.1 hx)) (fun m hm => ⟨[], early_refl hs hm⟩) (fun _ _ _ ⟨_, h⟩ => h.id)
      (fun _ _ _ _ ⟨d0, h⟩ hd => ⟨d0, { h with last := h.last.imp id (hd _) }⟩) hs.ids (ms := enlargeEnding s) (fun m hm => ((early_ending hs).2 m hm).1) (early_ending hs).1
      (fun _ _ h => absurd h List.not_mem_nil) (fun m hm d x hd ⟨d0, h⟩ => ⟨d0, by
        have hn : x.rawStop = none := h.last.resolve_right fun hh => hd (h.id ▸ hh)
        have hx : x.rawB = x.stop := by simp [Mt.rawB, hn]
        refine ⟨h.id, h.name, h.priv, h.val, h.fmt, h.left, ?_, h.first, Or.inr ?_, h.start, Or.inr ?_⟩
        · rw [← h.right, hx]
          simp only [updE, Mt.rawB, hn, Option.getD_some, Option.getD_none]
          omega
        · have : (updE x).id = m.id := h.id
          rw [this]
          exact List.mem_cons_self
        · obtain ⟨hm1, hm2⟩ := (early_ending hs).2 m hm
          have h1 : x.stop = m.stop := by
            rw [← hx, h.right]
            simp [Mt.rawB, (hs.raw m hm1).2]
          have : (updE x).stop = x.stop + 1 := rfl
          omega⟩)
      (l := (enlargeStarting s).foldl (enlargeStart s.input) s.live) (fun x hx => by
        obtain ⟨d, y, hy, h⟩ := h1 x hx
        exact ⟨y, hy, d, h⟩)
  intro x hx
  obtain ⟨d', y, hy, d, h⟩ := h2 x hx
  exact ⟨d, d', y, hy, h⟩

end Guessit
