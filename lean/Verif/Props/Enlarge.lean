import Verif.Model.Processors
import Verif.Proofs.Matches
import Mathlib.Data.List.Nodup

/-! # C38: enlarging the matches of a group -/

namespace Guessit

/-- Two matches with the same name, value and parent that end together right before the closing bracket of a group, one of which starts at the
opening bracket of a group, the other right after it. -/
def Spec.Crossing (s : Ms) (a b : Mt) : Prop :=
  a.name = b.name ∧ a.value s.input = b.value s.input ∧ a.parent = b.parent ∧ a.start + 1 = b.start ∧ a.stop = b.stop ∧
    (∃ g ∈ s.markers, g.name = some c!"group" ∧ g.start = a.start) ∧ ∃ g ∈ s.markers, g.name = some c!"group" ∧ g.stop = a.stop + 1

/-- What the rule finds when it runs, before any other rule: distinct objects whose raw span is their span, inside the input, no two of
them crossing a bracket; groups that are spans of the input, no two of which start or end at the same place.  Two matches may be equal. -/
structure Spec.BeforeRules (s : Ms) : Prop where
  ids : (s.live.map Mt.id).Nodup
  twins : ∀ a ∈ s.live, ∀ b ∈ s.live, ¬ Spec.Crossing s a b
  raw : ∀ m ∈ s.live, m.rawStart = none ∧ m.rawStop = none
  spans : ∀ m ∈ s.live, m.start ≤ m.stop ∧ m.stop ≤ s.input.length
  groups : ∀ g ∈ s.markers, g.name = some c!"group" → g.start < g.stop ∧ g.stop ≤ s.input.length
  starts : ((named s.markers c!"group").map Mt.start).Nodup
  stops : ((named s.markers c!"group").map Mt.stop).Nodup

open Spec

/-- What a match may have become during the rule. -/
structure Stage (input : Str) (live : List Mt) (f : Mt → Mt) : Prop where
  id : ∀ m ∈ live, (f m).id = m.id
  name : ∀ m ∈ live, (f m).name = m.name
  parent : ∀ m ∈ live, (f m).parent = m.parent
  value : ∀ m ∈ live, (f m).value input = m.value input
  start : ∀ m ∈ live, (f m).start = m.start ∨ (f m).start + 1 = m.start
  stop : ∀ m ∈ live, (f m).stop = m.stop ∨ (f m).stop = m.stop + 1

theorem removeMatch_first {input : Str} {m : Mt} {w : List Mt} : ∀ {u : List Mt}, (∀ x ∈ u, x.key input ≠ m.key input) →
    removeMatch input (u ++ m :: w) m = u ++ w
  | [], _ => by simp [removeMatch, eqv_iff.2 rfl]
  | x :: u, h => by
    rw [List.cons_append, removeMatch, if_neg fun he => h x (by simp) (eqv_iff.1 he).symm, removeMatch_first fun y hy => h y (by simp [hy])]
    rfl

/-- The objects of `todo`, one after the other, are replaced: when whatever equals one of them and is before it in the list comes before it in `todo`
as well, each is replaced itself. -/
theorem loop_eq {input : Str} {step : List Mt → Mt → List Mt} {upd f : Mt → Mt}
    (hstep : ∀ l m, step l m = removeMatch input l (current l m) ++ [upd (current l m)]) (hupd : ∀ m, (upd m).id = m.id)
    {l0 : List Mt} (hnd : (l0.map Mt.id).Nodup) : ∀ (todo P : List Mt),
    (∀ m ∈ P, (f m).id = m.id) → (∀ m ∈ todo, f m ∈ l0 ∧ (f m).id = m.id ∧ m.id ∉ P.map Mt.id) → (todo.map Mt.id).Nodup →
    (∀ T1 m T2, todo = T1 ++ m :: T2 → ∀ x, x.key input = (f m).key input → [x, f m].Sublist l0 → x.id ∈ P.map Mt.id ∨ x.id ∈ T1.map Mt.id) →
    todo.foldl step (l0.filter (fun x => decide (x.id ∉ P.map Mt.id)) ++ P.map (upd ∘ f)) =
      l0.filter (fun x => decide (x.id ∉ (P ++ todo).map Mt.id)) ++ (P ++ todo).map (upd ∘ f) := by
  intro todo
  induction todo with
  | nil => intro P _ _ _ _; simp
  | cons m todo ih =>
    intro P hP ht hn ho
    obtain ⟨hfm, hfid, hmP⟩ := ht m (by simp)
    rw [List.map_cons, List.nodup_cons] at hn
    obtain ⟨u, v, huv⟩ := List.append_of_mem hfm
    have hnd' := hnd
    rw [huv, List.map_append, List.map_cons, List.nodup_append] at hnd'
    have hu : ∀ x ∈ u, x.id ≠ m.id := fun x hx h => hnd'.2.2 x.id (List.mem_map_of_mem hx) (f m).id (by simp) (h.trans hfid.symm)
    have hv : ∀ x ∈ v, x.id ≠ m.id := fun x hx h => (List.nodup_cons.1 hnd'.2.1).1 (List.mem_map.2 ⟨x, hx, h.trans hfid.symm⟩)
    have hsplit : l0.filter (fun x => decide (x.id ∉ P.map Mt.id)) =
        u.filter (fun x => decide (x.id ∉ P.map Mt.id)) ++ f m :: v.filter (fun x => decide (x.id ∉ P.map Mt.id)) := by
      rw [huv, List.filter_append, List.filter_cons_of_pos (by rw [hfid]; exact decide_eq_true hmP)]
    have hcur : current (l0.filter (fun x => decide (x.id ∉ P.map Mt.id)) ++ P.map (upd ∘ f)) m = f m := by
      unfold current
      rw [hsplit, List.append_assoc, List.find?_append, List.find?_eq_none.2 (fun x hx => by
        simpa using hu x (List.mem_filter.1 hx).1)]
      simp [hfid]
    rw [List.foldl_cons, hstep, hcur, hsplit, List.append_assoc, List.cons_append, removeMatch_first]
    · have hkeep : ∀ l : List Mt, (∀ x ∈ l, x.id ≠ m.id) → l.filter (fun x => decide (x.id ∉ P.map Mt.id)) =
          l.filter (fun x => decide (x.id ∉ (P ++ [m]).map Mt.id)) := by
        intro l hl
        refine List.filter_congr fun x hx => ?_
        have := hl x hx
        simp only [List.map_append, List.map_cons, List.map_nil, List.mem_append, List.mem_singleton, this, or_false]
      have hne : l0.filter (fun x => decide (x.id ∉ (P ++ [m]).map Mt.id)) =
          u.filter (fun x => decide (x.id ∉ P.map Mt.id)) ++ v.filter (fun x => decide (x.id ∉ P.map Mt.id)) := by
        rw [hkeep u hu, hkeep v hv, huv, List.filter_append, List.filter_cons_of_neg]
        rw [hfid]
        simp
      have := ih (P ++ [m]) ?_ ?_ hn.2 ?_
      · rw [hne] at this
        simp only [List.append_assoc, List.map_append, List.map_cons, List.map_nil, List.cons_append, List.nil_append, Function.comp_apply] at this ⊢
        exact this
      · intro x hx
        rcases List.mem_append.1 hx with hx | hx
        · exact hP x hx
        · rw [List.mem_singleton.1 hx]; exact hfid
      · intro x hx
        obtain ⟨h1, h2, h3⟩ := ht x (by simp [hx])
        refine ⟨h1, h2, ?_⟩
        rw [List.map_append, List.mem_append, not_or]
        refine ⟨h3, ?_⟩
        rw [List.map_cons, List.map_nil, List.mem_singleton]
        exact fun h => hn.1 (List.mem_map.2 ⟨x, hx, h⟩)
      · intro T1 m' T2 e x hk hs
        rcases ho (m :: T1) m' T2 (by rw [e]; rfl) x hk hs with h | h
        · exact Or.inl (by rw [List.map_append]; exact List.mem_append_left _ h)
        · rw [List.map_cons, List.mem_cons] at h
          rcases h with h | h
          · exact Or.inl (by simp [h])
          · exact Or.inr h
    · intro x hx hk
      obtain ⟨hx1, hx2⟩ := List.mem_filter.1 hx
      have hsub : [x, f m].Sublist l0 := by
        rw [huv]
        exact (List.singleton_sublist.2 hx1).append (List.singleton_sublist.2 (by simp))
      rcases ho [] m todo rfl x hk hsub with h | h
      · exact of_decide_eq_true hx2 h
      · simp at h

/-- The outcome, up to the order. -/
theorem loop_perm {upd f : Mt → Mt} {l0 T : List Mt} (hnd : (l0.map Mt.id).Nodup) (ht : ∀ m ∈ T, f m ∈ l0 ∧ (f m).id = m.id)
    (hn : (T.map Mt.id).Nodup) : (l0.filter (fun x => decide (x.id ∉ T.map Mt.id)) ++ T.map (upd ∘ f)).Perm
      (l0.map fun x => if x.id ∈ T.map Mt.id then upd x else x) := by
  have hfn : (T.map f).Nodup := by
    refine List.Nodup.of_map Mt.id ?_
    rw [List.map_map, List.map_congr_left (f := Mt.id ∘ f) (g := Mt.id) fun m hm => (ht m hm).2]
    exact hn
  have hT : (l0.filter fun x => decide (x.id ∈ T.map Mt.id)).Perm (T.map f) := by
    refine (List.perm_ext_iff_of_nodup ((List.Nodup.of_map _ hnd).filter _) hfn).2 fun x => ?_
    rw [List.mem_filter, decide_eq_true_iff]
    constructor
    · rintro ⟨hx, hid⟩
      obtain ⟨m, hm, he⟩ := List.mem_map.1 hid
      have := List.inj_on_of_nodup_map hnd hx (ht m hm).1 (he.symm.trans (ht m hm).2.symm)
      exact List.mem_map.2 ⟨m, hm, this.symm⟩
    · rintro hx
      obtain ⟨m, hm, rfl⟩ := List.mem_map.1 hx
      exact ⟨(ht m hm).1, List.mem_map.2 ⟨m, hm, (ht m hm).2.symm⟩⟩
  have h1 : (l0.filter (fun x => decide (x.id ∉ T.map Mt.id))) =
      (l0.filter (fun x => decide (x.id ∉ T.map Mt.id))).map fun x => if x.id ∈ T.map Mt.id then upd x else x := by
    conv_lhs => rw [← List.map_id (l0.filter _)]
    refine List.map_congr_left fun x hx => ?_
    rw [if_neg (of_decide_eq_true (List.mem_filter.1 hx).2)]
    rfl
  have h2 : (T.map (upd ∘ f)).Perm ((l0.filter fun x => decide (x.id ∈ T.map Mt.id)).map fun x => if x.id ∈ T.map Mt.id then upd x else x) := by
    refine List.Perm.trans ?_ (hT.symm.map _)
    rw [List.map_map]
    refine List.Perm.of_eq (List.map_congr_left fun m hm => ?_)
    simp only [Function.comp_apply]
    rw [if_pos]
    rw [(ht m hm).2]
    exact List.mem_map_of_mem hm
  rw [h1]
  refine (List.Perm.append_left _ h2).trans ?_
  rw [← List.map_append]
  refine List.Perm.map _ ?_
  refine List.perm_append_comm.trans ?_
  have := List.filter_append_perm (fun x : Mt => decide (x.id ∈ T.map Mt.id)) l0
  simpa only [decide_not] using this

theorem sublist_pair_asymm {α : Type} {l : List α} (hn : l.Nodup) {a b : α} (h : [a, b].Sublist l) : ¬ [b, a].Sublist l := by
  intro h'
  have hp : l.Pairwise fun x y => ¬ [y, x].Sublist l := by
    induction l with
    | nil => exact .nil
    | cons c l ih =>
      rw [List.nodup_cons] at hn
      clear h h' ih
      rw [List.pairwise_iff_forall_sublist]
      have key : ∀ {l : List α}, l.Nodup → ∀ {x y : α}, [x, y].Sublist l → ¬ [y, x].Sublist l := by
        intro l
        induction l with
        | nil => intro _ x y h; cases h
        | cons d l ih =>
          intro hd x y h1 h2
          rw [List.nodup_cons] at hd
          cases h1 with
          | cons _ h1 => cases h2 with
            | cons _ h2 => exact ih hd.2 h1 h2
            | cons_cons _ h2 => exact hd.1 (h1.subset (by simp))
          | cons_cons _ h1 => cases h2 with
            | cons _ h2 => exact hd.1 (h2.subset (by simp))
            | cons_cons _ h2 => exact hd.1 (h1.subset (by simp))
      exact fun {x y} h => key (List.nodup_cons.2 hn) h
  exact List.pairwise_iff_forall_sublist.1 hp h h'

def moveS (m : Mt) : Mt :=
  { m with start := m.start - 1, istart := if m.parent.isNone then m.start - 1 else m.istart, rawStart := some (m.start - 1 + 1) }
def moveE (m : Mt) : Mt :=
  { m with stop := m.stop + 1, istop := if m.parent.isNone then m.stop + 1 else m.istop, rawStop := some (m.stop + 1 - 1) }

/-- What one iteration makes of the object. -/
def updS (m : Mt) : Mt :=
  { m with start := m.start - 1, istart := if m.parent.isNone then m.start - 1 else m.istart, rawStart := some (m.rawStart.getD (m.start - 1) + 1) }
def updE (m : Mt) : Mt :=
  { m with stop := m.stop + 1, istop := if m.parent.isNone then m.stop + 1 else m.istop, rawStop := some (m.rawStop.getD (m.stop + 1) - 1) }

theorem enlargeStart_step {input : Str} (l : List Mt) (m : Mt) : enlargeStart input l m = removeMatch input l (current l m) ++ [updS (current l m)] := rfl
theorem enlargeEnd_step {input : Str} (l : List Mt) (m : Mt) : enlargeEnd input l m = removeMatch input l (current l m) ++ [updE (current l m)] := rfl

/-- The state of an object after the objects with ids in `a` had their start moved and those in `b` their end. -/
def after (a b : List Nat) (m : Mt) : Mt :=
  let m := if m.id ∈ a then moveS m else m
  if m.id ∈ b then moveE m else m

theorem after_stage {s : Ms} (hs : BeforeRules s) (a b : List Nat) (ha : ∀ m ∈ s.live, m.id ∈ a → 0 < m.start) :
    Stage s.input s.live (after a b) ∧ ∀ m ∈ s.live, (after a b m).raw s.input = m.raw s.input := by
  have hraw : ∀ m ∈ s.live, (after a b m).raw s.input = m.raw s.input := by
    intro m hm
    obtain ⟨r1, r2⟩ := hs.raw m hm
    unfold after
    by_cases h1 : m.id ∈ a
    · have := ha m hm h1
      have hst : m.start - 1 + 1 = m.start := by omega
      by_cases h2 : m.id ∈ b
      · simp [h1, h2, moveS, moveE, Mt.raw, Mt.rawA, Mt.rawB, r1, r2, hst]
      · simp [h1, h2, moveS, Mt.raw, Mt.rawA, Mt.rawB, r1, r2, hst]
    · by_cases h2 : m.id ∈ b
      · simp [h1, h2, moveE, Mt.raw, Mt.rawA, Mt.rawB, r1, r2]
      · simp [h1, h2]
  refine ⟨⟨?_, ?_, ?_, ?_, ?_, ?_⟩, hraw⟩
  · intro m _; unfold after; by_cases h1 : m.id ∈ a <;> by_cases h2 : m.id ∈ b <;> simp [h1, h2, moveS, moveE]
  · intro m _; unfold after; by_cases h1 : m.id ∈ a <;> by_cases h2 : m.id ∈ b <;> simp [h1, h2, moveS, moveE]
  · intro m _; unfold after; by_cases h1 : m.id ∈ a <;> by_cases h2 : m.id ∈ b <;> simp [h1, h2, moveS, moveE]
  · intro m hm
    have hv : (after a b m).val = m.val ∧ (after a b m).fmt = m.fmt := by
      unfold after; by_cases h1 : m.id ∈ a <;> by_cases h2 : m.id ∈ b <;> simp [h1, h2, moveS, moveE]
    unfold Mt.value
    rw [hv.1, hv.2, hraw m hm]
  · intro m hm
    have : m.id ∈ a → 0 < m.start := ha m hm
    unfold after; by_cases h1 : m.id ∈ a <;> by_cases h2 : m.id ∈ b <;> simp [h1, h2, moveS, moveE] <;> (have := this h1; omega)
  · intro m _; unfold after; by_cases h1 : m.id ∈ a <;> by_cases h2 : m.id ∈ b <;> simp [h1, h2, moveS, moveE]

/-- In the lists the rule collects, matches that start (or end) at the same place keep their order. -/
theorem flatMap_sel_order {gs : List Mt} {live : List Mt} (k : Mt → Nat) (key : Mt → Nat) (hk : (gs.map k).Nodup) :
    (gs.flatMap fun g => live.filter fun m => decide (key m = k g)).Pairwise fun a b => key a = key b → [a, b].Sublist live := by
  induction gs with
  | nil => exact .nil
  | cons g gs ih =>
    rw [List.map_cons, List.nodup_cons] at hk
    rw [List.flatMap_cons, List.pairwise_append]
    refine ⟨?_, ih hk.2, ?_⟩
    · rw [List.pairwise_iff_forall_sublist]
      exact fun h _ => h.trans List.filter_sublist
    · intro a ha b hb he
      obtain ⟨g', hg', hb'⟩ := List.mem_flatMap.1 hb
      simp only [List.mem_filter, decide_eq_true_eq] at ha hb'
      exact absurd (List.mem_map.2 ⟨g', hg', hb'.2.symm.trans (he.symm.trans ha.2)⟩) hk.1

/-- What is before an element that is collected, and starts (or ends) at the same place, is collected before it. -/
theorem before_collected {T live : List Mt} {key : Mt → Nat} (hnd : live.Nodup)
    (hT : T.Pairwise fun a b => key a = key b → [a, b].Sublist live) {T1 T2 : List Mt} {m x : Mt} (e : T = T1 ++ m :: T2) (hx : x ∈ T)
    (hk : key x = key m) (hs : [x, m].Sublist live) : x ∈ T1 := by
  rw [e] at hx hT
  rcases List.mem_append.1 hx with h | h
  · exact h
  · rcases List.mem_cons.1 h with rfl | h
    · exact absurd hs (sublist_pair_asymm hnd hs)
    · exact absurd hs (sublist_pair_asymm hnd ((List.pairwise_cons.1 (List.pairwise_append.1 hT).2.1).1 x h hk.symm))

theorem nodup_flatMap_sel {α : Type} {gs : List Mt} {live : List Mt} (k : Mt → α) (key : Mt → α) [DecidableEq α]
    (hk : (gs.map k).Nodup) (hids : (live.map Mt.id).Nodup) :
    ((gs.flatMap fun g => live.filter fun m => decide (key m = k g)).map Mt.id).Nodup := by
  induction gs with
  | nil => simp
  | cons g gs ih =>
    rw [List.map_cons, List.nodup_cons] at hk
    rw [List.flatMap_cons, List.map_append, List.nodup_append]
    refine ⟨?_, ih hk.2, ?_⟩
    · exact (List.filter_sublist.map _).nodup hids
    · intro x hx y hy hxy
      obtain ⟨m, hm, rfl⟩ := List.mem_map.1 hx
      obtain ⟨m', hm', rfl⟩ := List.mem_map.1 hy
      obtain ⟨g', hg', hm''⟩ := List.mem_flatMap.1 hm'
      simp only [List.mem_filter, decide_eq_true_eq] at hm hm''
      have : m = m' := List.inj_on_of_nodup_map hids hm.1 hm''.1 hxy
      subst this
      exact hk.1 (List.mem_map.2 ⟨g', hg', hm''.2.symm.trans hm.2⟩)

/-- C38: the matches are the same objects (in some order) with the same name, tags, explicit value and raw text; the start
of a match moves over an opening bracket exactly when a group starts right before it, its end over a closing bracket
exactly when a group ends right after it; spans stay inside the input.  A match without a parent stays its own initiator, that
of the others does not move. -/
theorem C38_enlarge (s : Ms) (hs : BeforeRules s) :
    ∃ f : Mt → Mt, (enlargeGroupMatches s).live.Perm (s.live.map f) ∧
      (enlargeGroupMatches s).input = s.input ∧ (enlargeGroupMatches s).markers = s.markers ∧
      ∀ m ∈ s.live,
        f m = { m with start := (f m).start, stop := (f m).stop, rawStart := (f m).rawStart, rawStop := (f m).rawStop,
                       istart := (f m).istart, istop := (f m).istop } ∧
        ((m.parent = none → m.istart = m.start → (f m).istart = (f m).start) ∧ (m.parent = none → m.istop = m.stop → (f m).istop = (f m).stop) ∧
          (m.parent ≠ none → (f m).istart = m.istart ∧ (f m).istop = m.istop)) ∧
        (f m).raw s.input = m.raw s.input ∧ (f m).value s.input = m.value s.input ∧ ((f m).rawA = m.rawA ∧ (f m).rawB = m.rawB) ∧
        ((∃ g ∈ s.markers, g.name = some c!"group" ∧ g.start + 1 = m.start) → (f m).start + 1 = m.start) ∧
        ((¬ ∃ g ∈ s.markers, g.name = some c!"group" ∧ g.start + 1 = m.start) → (f m).start = m.start) ∧
        ((∃ g ∈ s.markers, g.name = some c!"group" ∧ g.stop = m.stop + 1) → (f m).stop = m.stop + 1) ∧
        ((¬ ∃ g ∈ s.markers, g.name = some c!"group" ∧ g.stop = m.stop + 1) → (f m).stop = m.stop) ∧
        (f m).start ≤ (f m).stop ∧ (f m).stop ≤ s.input.length := by
  have hS : ∀ m, m ∈ enlargeStarting s ↔ m ∈ s.live ∧ ∃ g ∈ s.markers, g.name = some c!"group" ∧ g.start + 1 = m.start := by
    intro m
    simp only [enlargeStarting, starting, List.mem_flatMap, mem_named, List.mem_filter, decide_eq_true_eq]
    constructor
    · rintro ⟨g, ⟨h1, h2⟩, h3, h4⟩; exact ⟨h3, g, h1, h2, h4.symm⟩
    · rintro ⟨h3, g, h1, h2, h4⟩; exact ⟨g, ⟨h1, h2⟩, h3, h4.symm⟩
  have hE : ∀ m, m ∈ enlargeEnding s ↔ m ∈ s.live ∧ ∃ g ∈ s.markers, g.name = some c!"group" ∧ g.stop = m.stop + 1 := by
    intro m
    simp only [enlargeEnding, ending, List.mem_flatMap, mem_named, List.mem_filter, decide_eq_true_eq]
    constructor
    · rintro ⟨g, ⟨h1, h2⟩, h3, h4⟩; have := hs.groups g h1 h2; exact ⟨h3, g, h1, h2, by omega⟩
    · rintro ⟨h3, g, h1, h2, h4⟩; exact ⟨g, ⟨h1, h2⟩, h3, by omega⟩
  have nS : ((enlargeStarting s).map Mt.id).Nodup := by
    refine nodup_flatMap_sel (fun g => g.start + 1) Mt.start ?_ hs.ids
    have := hs.starts
    rw [show (fun g : Mt => g.start + 1) = (fun n => n + 1) ∘ Mt.start from rfl, ← List.map_map]
    exact this.map (fun a b h => by simpa using h)
  have nE : ((enlargeEnding s).map Mt.id).Nodup := by
    refine nodup_flatMap_sel (fun g => g.stop - 1) Mt.stop ?_ hs.ids
    refine List.Nodup.map_on ?_ (List.Nodup.of_map _ hs.stops)
    intro a ha b hb h
    have h1 := hs.groups a (mem_named.1 ha).1 (mem_named.1 ha).2
    have h2 := hs.groups b (mem_named.1 hb).1 (mem_named.1 hb).2
    have h3 : a.stop = b.stop := by omega
    exact List.inj_on_of_nodup_map hs.stops ha hb h3
  have hpos : ∀ m ∈ s.live, m.id ∈ (enlargeStarting s).map Mt.id → 0 < m.start := by
    intro m hm h
    obtain ⟨x, hx, hid⟩ := List.mem_map.1 h
    have := (hS x).1 hx
    have e := List.inj_on_of_nodup_map hs.ids this.1 hm hid
    subst e
    obtain ⟨_, g, _, _, h4⟩ := this
    omega
  have hlnd : s.live.Nodup := List.Nodup.of_map _ hs.ids
  -- the first loop
  have oS : (enlargeStarting s).Pairwise fun a b => a.start = b.start → [a, b].Sublist s.live := by
    refine flatMap_sel_order (fun g => g.start + 1) Mt.start ?_
    rw [show (fun g : Mt => g.start + 1) = (fun n => n + 1) ∘ Mt.start from rfl, ← List.map_map]
    exact hs.starts.map (fun a b h => by simpa using h)
  have oE : (enlargeEnding s).Pairwise fun a b => a.stop = b.stop → [a, b].Sublist s.live := by
    refine flatMap_sel_order (fun g => g.stop - 1) Mt.stop ?_
    refine List.Nodup.map_on ?_ (List.Nodup.of_map _ hs.stops)
    intro a ha b hb h
    have h1 := hs.groups a (mem_named.1 ha).1 (mem_named.1 ha).2
    have h2 := hs.groups b (mem_named.1 hb).1 (mem_named.1 hb).2
    have h3 : a.stop = b.stop := by omega
    exact List.inj_on_of_nodup_map hs.stops ha hb h3
  have e1 := loop_eq (f := id) (enlargeStart_step (input := s.input)) (fun _ => rfl) hs.ids (enlargeStarting s) [] (by simp)
    (fun m hm => ⟨((hS m).1 hm).1, rfl, by simp⟩) nS (by
      intro T1 m T2 e x hk hsub
      have hxl : x ∈ s.live := hsub.subset (by simp)
      have hst : x.start = m.start := congrArg MtKey.start hk
      have hmS : m ∈ enlargeStarting s := by rw [e]; simp
      have hxS : x ∈ enlargeStarting s := (hS x).2 ⟨hxl, by rw [hst]; exact ((hS m).1 hmS).2⟩
      exact Or.inr (List.mem_map_of_mem (before_collected hlnd oS e hxS hst hsub)))
  rw [show s.live.filter (fun x => decide (x.id ∉ ([] : List Mt).map Mt.id)) = s.live from by simp, List.nil_append, List.map_nil,
    List.append_nil] at e1
  have p1 : (s.live.filter (fun x => decide (x.id ∉ (enlargeStarting s).map Mt.id)) ++ (enlargeStarting s).map (updS ∘ id)).Perm
      (s.live.map (after ((enlargeStarting s).map Mt.id) [])) := by
    refine (loop_perm hs.ids (fun m hm => ⟨((hS m).1 hm).1, rfl⟩) nS).trans (List.Perm.of_eq (List.map_congr_left fun x hx => ?_))
    by_cases h : x.id ∈ (enlargeStarting s).map Mt.id
    · simp [after, h, updS, moveS, Mt.rawA, (hs.raw x hx).1]
    · simp [after, h]
  -- the second one
  generalize hA : (enlargeStarting s).map Mt.id = A at *
  have aid : ∀ x, (after A [] x).id = x.id := fun x => by unfold after; by_cases h : x.id ∈ A <;> simp [h, moveS]
  have astop : ∀ x, (after A [] x).stop = x.stop := fun x => by unfold after; by_cases h : x.id ∈ A <;> simp [h, moveS]
  have inA : ∀ x ∈ s.live, x.id ∈ A → x ∈ enlargeStarting s := by
    intro x hx h
    rw [← hA] at h
    obtain ⟨y, hy, he⟩ := List.mem_map.1 h
    rw [← List.inj_on_of_nodup_map hs.ids ((hS y).1 hy).1 hx he]
    exact hy
  have n1 : ((s.live.filter (fun x => decide (x.id ∉ A)) ++ (enlargeStarting s).map (updS ∘ id)).map Mt.id).Nodup := by
    refine ((p1.map Mt.id).nodup_iff).2 ?_
    rw [List.map_map, List.map_congr_left (f := Mt.id ∘ after A []) (g := Mt.id) fun x _ => aid x]
    exact hs.ids
  obtain ⟨stA, _⟩ := after_stage hs A [] hpos
  have e2 := loop_eq (f := after A []) (enlargeEnd_step (input := s.input)) (fun _ => rfl) n1 (enlargeEnding s) [] (by simp)
    (fun m hm => ⟨p1.mem_iff.2 (List.mem_map_of_mem ((hE m).1 hm).1), aid m, by simp⟩) nE (by
      intro T1 m T2 e x hk hsub
      have hmE : m ∈ enlargeEnding s := by rw [e]; simp
      obtain ⟨hml, hmg⟩ := (hE m).1 hmE
      obtain ⟨y, hyl, rfl⟩ := List.mem_map.1 (p1.mem_iff.1 (hsub.subset (List.mem_cons_self)))
      have hstop : y.stop = m.stop := by
        have : (after A [] y).stop = (after A [] m).stop := congrArg MtKey.stop hk
        rwa [astop, astop] at this
      have hstart : (after A [] y).start = (after A [] m).start := congrArg MtKey.start hk
      have hval : y.value s.input = m.value s.input := by
        have : (after A [] y).value s.input = (after A [] m).value s.input := congrArg MtKey.value hk
        rwa [stA.value y hyl, stA.value m hml] at this
      have hname : y.name = m.name := by
        have : (after A [] y).name = (after A [] m).name := congrArg MtKey.name hk
        rwa [stA.name y hyl, stA.name m hml] at this
      have hpar : y.parent = m.parent := by
        have : (after A [] y).parent = (after A [] m).parent := congrArg MtKey.parent hk
        rwa [stA.parent y hyl, stA.parent m hml] at this
      have hyE : y ∈ enlargeEnding s := (hE y).2 ⟨hyl, by rw [hstop]; exact hmg⟩
      have hunm : ∀ z, z ∈ s.live → after A [] z ∈ s.live.filter (fun x => decide (x.id ∉ A)) → z.id ∉ A ∧ after A [] z = z := by
        intro z hz h
        have := of_decide_eq_true (List.mem_filter.1 h).2
        rw [aid] at this
        exact ⟨this, by simp [after, this]⟩
      have hmov : ∀ z, z ∈ s.live → after A [] z ∈ (enlargeStarting s).map (updS ∘ id) → z ∈ enlargeStarting s ∧ (after A [] z).start + 1 = z.start := by
        intro z hz h
        obtain ⟨z', hz', he⟩ := List.mem_map.1 h
        have hid : z.id ∈ A := by
          rw [← aid z, ← he, ← hA]
          exact List.mem_map.2 ⟨z', hz', rfl⟩
        have := hpos z hz hid
        refine ⟨inA z hz hid, ?_⟩
        simp only [after, hid, if_true, List.not_mem_nil, if_false, moveS]
        omega
      have horder : [y, m].Sublist s.live := by
        obtain ⟨l1, l2, hl, h1, h2⟩ := List.sublist_append_iff.1 hsub
        match l1, l2, hl with
        | [], _, hl =>
          rw [List.nil_append] at hl
          subst hl
          have hy := hmov y hyl (h2.subset (by simp))
          have hm := hmov m hml (h2.subset (by simp))
          obtain ⟨l', hl', he⟩ := List.sublist_map_iff.1 h2
          match l', he with
          | [], he => simp at he
          | [_], he => simp at he
          | _ :: _ :: _ :: _, he => simp at he
          | [a, c], he =>
            simp only [List.map_cons, List.map_nil, List.cons.injEq, and_true, Function.comp_apply, id] at he
            have ha : a.id = y.id := by rw [← aid y, he.1]; rfl
            have hc : c.id = m.id := by rw [← aid m, he.2]; rfl
            have hal := ((hS a).1 (hl'.subset (by simp))).1
            have hcl := ((hS c).1 (hl'.subset (by simp))).1
            have := List.inj_on_of_nodup_map hs.ids hal hyl ha
            subst this
            have := List.inj_on_of_nodup_map hs.ids hcl hml hc
            subst this
            exact List.pairwise_iff_forall_sublist.1 oS hl' (by omega)
        | [a], _, hl =>
          simp only [List.cons_append, List.nil_append, List.cons.injEq] at hl
          obtain ⟨rfl, rfl⟩ := hl
          have hy := hunm y hyl (h1.subset (by simp))
          have hm := hmov m hml (h2.subset (by simp))
          have hst : y.start + 1 = m.start := by rw [← hm.2, ← hstart, hy.2]
          obtain ⟨_, g, hg, hgn, hgs⟩ := (hS m).1 hm.1
          refine absurd ⟨hname, hval, hpar, hst, hstop, ⟨g, hg, hgn, by omega⟩, ?_⟩ (hs.twins y hyl m hml)
          rw [hstop]
          exact hmg
        | [a, c], _, hl =>
          simp only [List.cons_append, List.nil_append, List.cons.injEq] at hl
          obtain ⟨rfl, rfl, _⟩ := hl
          have hy := hunm y hyl (h1.subset (by simp))
          have hm := hunm m hml (h1.subset (by simp))
          rw [hy.2, hm.2] at h1
          exact h1.trans List.filter_sublist
        | a :: c :: d :: _, _, hl => simp at hl
      refine Or.inr ?_
      rw [aid]
      exact List.mem_map_of_mem (before_collected hlnd oE e hyE hstop horder))
  rw [show (s.live.filter (fun x => decide (x.id ∉ A)) ++ (enlargeStarting s).map (updS ∘ id)).filter
    (fun x => decide (x.id ∉ ([] : List Mt).map Mt.id)) = _ from List.filter_eq_self.2 (by simp), List.nil_append, List.map_nil,
    List.append_nil] at e2
  have l2 : (enlargeGroupMatches s).live.Perm (s.live.map (after A ((enlargeEnding s).map Mt.id))) := by
    show ((enlargeEnding s).foldl (enlargeEnd s.input) ((enlargeStarting s).foldl (enlargeStart s.input) s.live)).Perm _
    rw [e1, e2]
    refine (loop_perm n1 (fun m hm => ⟨p1.mem_iff.2 (List.mem_map_of_mem ((hE m).1 hm).1), aid m⟩) nE).trans ?_
    refine (p1.map _).trans ?_
    rw [List.map_map]
    refine List.Perm.of_eq (List.map_congr_left fun x hx => ?_)
    simp only [Function.comp_apply, aid]
    have hr : (after A [] x).rawStop = none := by unfold after; by_cases h : x.id ∈ A <;> simp [h, moveS, (hs.raw x hx).2]
    have hun : ∀ b, after A b x = if x.id ∈ b then moveE (after A [] x) else after A [] x := by
      intro b
      unfold after
      by_cases h : x.id ∈ A <;> simp [h, moveS]
    by_cases h : x.id ∈ (enlargeEnding s).map Mt.id
    · rw [if_pos h, hun ((enlargeEnding s).map Mt.id), if_pos h]
      simp [updE, moveE, hr]
    · rw [if_neg h, hun ((enlargeEnding s).map Mt.id), if_neg h]
  subst hA
  refine ⟨after ((enlargeStarting s).map Mt.id) ((enlargeEnding s).map Mt.id), l2, rfl, rfl, ?_⟩
  obtain ⟨st, hraw⟩ := after_stage hs ((enlargeStarting s).map Mt.id) ((enlargeEnding s).map Mt.id) hpos
  intro m hm
  have inS : m.id ∈ (enlargeStarting s).map Mt.id ↔ ∃ g ∈ s.markers, g.name = some c!"group" ∧ g.start + 1 = m.start := by
    constructor
    · intro h
      obtain ⟨x, hx, hid⟩ := List.mem_map.1 h
      have := (hS x).1 hx
      have e := List.inj_on_of_nodup_map hs.ids this.1 hm hid
      subst e; exact this.2
    · intro h; exact List.mem_map_of_mem ((hS m).2 ⟨hm, h⟩)
  have inE : m.id ∈ (enlargeEnding s).map Mt.id ↔ ∃ g ∈ s.markers, g.name = some c!"group" ∧ g.stop = m.stop + 1 := by
    constructor
    · intro h
      obtain ⟨x, hx, hid⟩ := List.mem_map.1 h
      have := (hE x).1 hx
      have e := List.inj_on_of_nodup_map hs.ids this.1 hm hid
      subst e; exact this.2
    · intro h; exact List.mem_map_of_mem ((hE m).2 ⟨hm, h⟩)
  have hp := hpos m hm
  have hsp := hs.spans m hm
  have hEle : m.id ∈ (enlargeEnding s).map Mt.id → m.stop + 1 ≤ s.input.length := by
    rw [inE]; rintro ⟨g, h1, h2, h3⟩; have := hs.groups g h1 h2; omega
  rw [← inS, ← inE]
  refine ⟨?_, ?_, hraw m hm, st.value m hm, ?_, ?_⟩
  · unfold after
    by_cases h1 : m.id ∈ (enlargeStarting s).map Mt.id <;> by_cases h2 : m.id ∈ (enlargeEnding s).map Mt.id <;>
      simp only [h1, h2, if_true, if_false, moveS, moveE]
  · unfold after
    by_cases h1 : m.id ∈ (enlargeStarting s).map Mt.id <;> by_cases h2 : m.id ∈ (enlargeEnding s).map Mt.id <;> cases hpar : m.parent <;>
      simp [h1, h2, moveS, moveE, hpar]
  · have hr := hs.raw m hm
    unfold after
    by_cases h1 : m.id ∈ (enlargeStarting s).map Mt.id <;> by_cases h2 : m.id ∈ (enlargeEnding s).map Mt.id
    all_goals simp only [h1, h2, if_true, if_false, moveS, moveE, Mt.rawA, Mt.rawB, hr.1, hr.2, Option.getD_some, Option.getD_none]
    all_goals first
      | (have := hp h1; exact ⟨by omega, by simp⟩)
      | (have := hp h1; exact ⟨by omega, rfl⟩)
      | simp
  · unfold after
    by_cases h1 : m.id ∈ (enlargeStarting s).map Mt.id <;> by_cases h2 : m.id ∈ (enlargeEnding s).map Mt.id
    all_goals simp only [h1, h2, if_true, if_false, moveS, moveE, forall_true_left, not_true, not_false_iff, false_implies, true_and, and_true]
    all_goals first
      | (have := hp h1; have := hEle h2; omega)
      | (have := hp h1; omega)
      | (have := hEle h2; omega)
      | omega

/-- `[abc]`: the match `abc` gets the brackets; its raw text stays. -/
def enlargeExample : Ms :=
  ⟨c!"x[abc]y", [{ id := 0, start := 2, stop := 5, name := some c!"release_group" }], [{ id := 1, start := 1, stop := 6, name := some c!"group" }]⟩

example : (enlargeGroupMatches enlargeExample).live.map (fun m => (m.start, m.stop, m.raw enlargeExample.input)) = [(1, 6, c!"abc")] := by
  decide

example : BeforeRules enlargeExample where
  ids := by decide
  twins := by simp [enlargeExample, Crossing]
  raw := by simp [enlargeExample]
  spans := by simp [enlargeExample]
  groups := by simp [enlargeExample]
  starts := by decide
  stops := by decide

/-- Two patterns may find the same thing: both matches get the brackets. -/
def enlargeTwins : Ms :=
  ⟨c!"x[abc]y", [{ id := 0, start := 2, stop := 5, name := some c!"release_group", tags := [c!"a"] },
    { id := 2, start := 2, stop := 5, name := some c!"release_group", tags := [c!"b"] }], [{ id := 1, start := 1, stop := 6, name := some c!"group" }]⟩

example : (enlargeGroupMatches enlargeTwins).live.map (fun m => (m.start, m.stop, m.raw enlargeTwins.input, m.tags)) =
    [(1, 6, c!"abc", [c!"a"]), (1, 6, c!"abc", [c!"b"])] := by
  decide +kernel

example : BeforeRules enlargeTwins where
  ids := by decide
  twins := by simp [enlargeTwins, Crossing]
  raw := by simp [enlargeTwins]
  spans := by simp [enlargeTwins]
  groups := by simp [enlargeTwins]
  starts := by decide
  stops := by decide

end Guessit
