import Verif.Model.Processors
import Verif.Spec.Rules
import Verif.Proofs.Matches
import Verif.Props.Rules

/-! # C33: ambiguity between path parts -/

namespace Guessit
open Spec

/-- One part, exactly. -/
theorem ambFold (input : Str) (ms : List Mt) : ∀ st : AmbState,
    (ms.foldl (ambMatch input) st).previous = st.previous ∧
    (∀ n v, (n, v) ∈ (ms.foldl (ambMatch input) st).values ↔
      (n, v) ∈ st.values ∨ (n ∉ st.previous ∧ ∃ m ∈ ms, m.name = n ∧ m.value input = v)) ∧
    (ms.foldl (ambMatch input) st).toRemove = st.toRemove ++ ms.filter fun m =>
      decide (m.name ∈ st.previous) && !decide ((m.name, m.value input) ∈ st.values) := by
  induction ms with
  | nil => intro st; simp
  | cons m ms ih =>
    intro st
    simp only [List.foldl_cons]
    obtain ⟨h1, h2, h3⟩ := ih (ambMatch input st m)
    by_cases hp : m.name ∈ st.previous <;> by_cases hv : (m.name, m.value input) ∈ st.values
    · have e : ambMatch input st m = st := by simp [ambMatch, hp, hv]
      rw [e] at h1 h2 h3 ⊢
      refine ⟨h1, ?_, ?_⟩
      · intro n v; rw [h2]
        constructor
        · rintro (h | ⟨h, x, hx, hh⟩)
          · exact Or.inl h
          · exact Or.inr ⟨h, x, by simp [hx], hh⟩
        · rintro (h | ⟨h, x, hx, hh, hh'⟩)
          · exact Or.inl h
          · rcases List.mem_cons.1 hx with rfl | hx
            · exact absurd (hh ▸ hp) h
            · exact Or.inr ⟨h, x, hx, hh, hh'⟩
      · rw [h3]; simp [hp, hv]
    · have e : ambMatch input st m = { st with toRemove := st.toRemove ++ [m] } := by simp [ambMatch, hp, hv]
      rw [e] at h1 h2 h3 ⊢
      refine ⟨h1, ?_, ?_⟩
      · intro n v; rw [h2]
        constructor
        · rintro (h | ⟨h, x, hx, hh⟩)
          · exact Or.inl h
          · exact Or.inr ⟨h, x, by simp [hx], hh⟩
        · rintro (h | ⟨h, x, hx, hh, hh'⟩)
          · exact Or.inl h
          · rcases List.mem_cons.1 hx with rfl | hx
            · exact absurd (hh ▸ hp) h
            · exact Or.inr ⟨h, x, hx, hh, hh'⟩
      · rw [h3]; simp [hp, hv]
    · have e : ambMatch input st m = st := by simp [ambMatch, hp, hv]
      rw [e] at h1 h2 h3 ⊢
      refine ⟨h1, ?_, ?_⟩
      · intro n v; rw [h2]
        constructor
        · rintro (h | ⟨h, x, hx, hh⟩)
          · exact Or.inl h
          · exact Or.inr ⟨h, x, by simp [hx], hh⟩
        · rintro (h | ⟨h, x, hx, hh, hh'⟩)
          · exact Or.inl h
          · rcases List.mem_cons.1 hx with rfl | hx
            · exact Or.inl (by rw [← hh, ← hh']; exact hv)
            · exact Or.inr ⟨h, x, hx, hh, hh'⟩
      · rw [h3]; simp [hp]
    · have e : ambMatch input st m = { st with values := st.values ++ [(m.name, m.value input)] } := by simp [ambMatch, hp, hv]
      rw [e] at h1 h2 h3 ⊢
      refine ⟨h1, ?_, ?_⟩
      · intro n v; rw [h2]
        simp only [List.mem_append, List.mem_singleton, Prod.mk.injEq]
        constructor
        · rintro ((h | ⟨rfl, rfl⟩) | ⟨h, x, hx, hh⟩)
          · exact Or.inl h
          · exact Or.inr ⟨hp, m, by simp, rfl, rfl⟩
          · exact Or.inr ⟨h, x, by simp [hx], hh⟩
        · rintro (h | ⟨h, x, hx, hh, hh'⟩)
          · exact Or.inl (Or.inl h)
          · rcases List.mem_cons.1 hx with rfl | hx
            · exact Or.inl (Or.inr ⟨hh.symm, hh'.symm⟩)
            · exact Or.inr ⟨h, x, hx, hh, hh'⟩
      · rw [h3]
        simp only [List.filter_cons, hp]
        simp only [decide_false, Bool.false_and, Bool.false_eq_true, if_false]
        congr 1
        apply List.filter_congr
        intro x _
        by_cases hx : x.name ∈ st.previous
        · have : x.name ≠ m.name := fun h => hp (h ▸ hx)
          simp [hx, this]
        · simp [hx]

/-- What is known after the parts `done`. -/
structure AmbInv (input : Str) (live : List Mt) (q : Option Str → Bool) (done : List Mt) (st : AmbState) : Prop where
  previous : ∀ n, n ∈ st.previous ↔ ∃ part ∈ done, PartHas live q part n
  values : ∀ n v, (n, v) ∈ st.values ↔ ∃ home, IsHome live q done n home ∧ ∃ m ∈ live, Overlaps home m ∧ m.name = n ∧ m.value input = v
  sound : ∀ x ∈ st.toRemove, x.name ∈ st.previous ∧ (x.name, x.value input) ∉ st.values
  complete : ∀ x ∈ live, q x.name = true → (∃ part ∈ done, Overlaps part x) → (x.name, x.value input) ∉ st.values →
    countKey input (x.key input) live ≤ countKey input (x.key input) st.toRemove

theorem isHome_snoc {live : List Mt} {q : Option Str → Bool} {done : List Mt} {part : Mt} {n : Option Str} {home : Mt} :
    IsHome live q (done ++ [part]) n home ↔
      IsHome live q done n home ∨ ((¬ ∃ p ∈ done, PartHas live q p n) ∧ home = part ∧ PartHas live q part n) := by
  constructor
  · rintro ⟨pre, post, h1, h2, h3⟩
    rcases List.eq_nil_or_concat post with rfl | ⟨post', z, rfl⟩
    · have := List.append_inj' (t₁ := [part]) (t₂ := [home]) h1 rfl
      obtain ⟨rfl, e⟩ := this
      cases e
      exact Or.inr ⟨fun ⟨p, hp, hh⟩ => h3 p hp hh, rfl, h2⟩
    · have h1' : done ++ [part] = (pre ++ home :: post') ++ [z] := by rw [h1]; simp
      obtain ⟨rfl, e⟩ := List.append_inj' h1' rfl
      exact Or.inl ⟨pre, post', rfl, h2, h3⟩
  · rintro (⟨pre, post, rfl, h2, h3⟩ | ⟨h1, rfl, h2⟩)
    · exact ⟨pre, post ++ [part], by simp, h2, h3⟩
    · exact ⟨done, [], rfl, h2, fun p hp hh => h1 ⟨p, hp, hh⟩⟩

theorem AmbInv.step {input : Str} {live : List Mt} {q : Option Str → Bool} {done : List Mt} {st : AmbState} {part : Mt}
    (hwf : WellFormed input live) (h : AmbInv input live q done st) :
    AmbInv input live q (done ++ [part]) (ambPart input live (fun m => q m.name) st part) := by
  have hr : ∀ m, m ∈ rangeOf input live part.start part.stop (fun m => q m.name) ↔ m ∈ live ∧ Overlaps part m ∧ q m.name = true := by
    intro m
    constructor
    · intro hm; rw [mem_rangeOf] at hm; exact ⟨hm.1, ⟨hm.2.2.1, hm.2.2.2.1⟩, hm.2.2.2.2⟩
    · rintro ⟨h1, h2, h3⟩; exact (mem_rangeOf' (hwf m h1).1).2 ⟨h1, h2.1, h2.2, h3⟩
  obtain ⟨f1, f2, f3⟩ := ambFold input (rangeOf input live part.start part.stop (fun m => q m.name)) st
  have hprev : ∀ n, n ∈ (ambPart input live (fun m => q m.name) st part).previous ↔ n ∈ st.previous ∨ PartHas live q part n := by
    intro n
    simp only [ambPart, f1, List.mem_append, List.mem_map, hr, PartHas]
    constructor
    · rintro (h | ⟨m, ⟨h1, h2, h3⟩, rfl⟩)
      · exact Or.inl h
      · exact Or.inr ⟨h3, m, h1, h2, rfl⟩
    · rintro (h | ⟨h3, m, h1, h2, rfl⟩)
      · exact Or.inl h
      · exact Or.inr ⟨m, ⟨h1, h2, h3⟩, rfl⟩
  have hval : ∀ n v, (n, v) ∈ (ambPart input live (fun m => q m.name) st part).values ↔
      (n, v) ∈ st.values ∨ (n ∉ st.previous ∧ ∃ m ∈ live, Overlaps part m ∧ q m.name = true ∧ m.name = n ∧ m.value input = v) := by
    intro n v
    simp only [ambPart, f2, hr, and_assoc]
  have hrem : (ambPart input live (fun m => q m.name) st part).toRemove = st.toRemove ++
      (rangeOf input live part.start part.stop (fun m => q m.name)).filter fun m =>
        decide (m.name ∈ st.previous) && !decide ((m.name, m.value input) ∈ st.values) := by
    simp only [ambPart, f3]
  refine ⟨?_, ?_, ?_, ?_⟩
  · intro n
    rw [hprev, h.previous]
    constructor
    · rintro (⟨p, hp, hh⟩ | hh)
      · exact ⟨p, by simp [hp], hh⟩
      · exact ⟨part, by simp, hh⟩
    · rintro ⟨p, hp, hh⟩
      rcases List.mem_append.1 hp with hp | hp
      · exact Or.inl ⟨p, hp, hh⟩
      · simp only [List.mem_singleton] at hp; exact Or.inr (hp ▸ hh)
  · intro n v
    rw [hval, h.values]
    simp only [isHome_snoc]
    constructor
    · rintro (⟨home, h1, h2⟩ | ⟨h1, m, hm, ho, hq, hn, hv⟩)
      · exact ⟨home, Or.inl h1, h2⟩
      · rw [h.previous] at h1
        exact ⟨part, Or.inr ⟨h1, rfl, hn ▸ hq, m, hm, ho, hn⟩, m, hm, ho, hn, hv⟩
    · rintro ⟨home, h1 | ⟨h1, rfl, h2⟩, m, hm, ho, hn, hv⟩
      · exact Or.inl ⟨home, h1, m, hm, ho, hn, hv⟩
      · exact Or.inr ⟨by rw [h.previous]; exact h1, m, hm, ho, hn ▸ h2.1, hn, hv⟩
  · intro x hx
    rw [hrem, List.mem_append] at hx
    rw [hprev, hval]
    rcases hx with hx | hx
    · obtain ⟨h1, h2⟩ := h.sound x hx
      exact ⟨Or.inl h1, by rintro (h3 | ⟨h3, _⟩); exacts [h2 h3, h3 h1]⟩
    · rw [List.mem_filter] at hx
      have h2 : x.name ∈ st.previous ∧ (x.name, x.value input) ∉ st.values := by simpa using hx.2
      exact ⟨Or.inl h2.1, by rintro (h3 | ⟨h3, _⟩); exacts [h2.2 h3, h3 h2.1]⟩
  · intro x hx hq hex hno
    rw [hval] at hno
    have hno1 : (x.name, x.value input) ∉ st.values := fun hh => hno (Or.inl hh)
    rw [hrem]
    have happ : ∀ a b : List Mt, countKey input (x.key input) (a ++ b) = countKey input (x.key input) a + countKey input (x.key input) b := by
      intro a b; simp [countKey]
    rw [happ]
    by_cases hd : ∃ part ∈ done, Overlaps part x
    · have := h.complete x hx hq hd hno1
      omega
    · obtain ⟨p, hp, ho⟩ := hex
      have hpo : Overlaps part x := by
        rcases List.mem_append.1 hp with hp | hp
        · exact absurd ⟨p, hp, ho⟩ hd
        · simp only [List.mem_singleton] at hp; exact hp ▸ ho
      have hin : x.name ∈ st.previous := by
        refine Classical.byContradiction fun hn => hno (Or.inr ⟨hn, x, hx, hpo, hq, rfl, rfl⟩)
      have hperm : (rangeOf input live part.start part.stop fun m => q m.name).Perm
          (live.filter fun m => decide (m.start < min (maxEnd input live) part.stop) && decide (m.stop > part.start) && q m.name) :=
        (sortBy_perm Mt.lt live).filter _
      have e : countKey input (x.key input) ((rangeOf input live part.start part.stop fun m => q m.name).filter fun m =>
          decide (m.name ∈ st.previous) && !decide ((m.name, m.value input) ∈ st.values)) = countKey input (x.key input) live := by
        unfold countKey
        rw [(hperm.filter _).countP_eq, List.countP_filter, List.countP_filter]
        apply List.countP_congr
        intro m hm
        simp only [Bool.and_eq_true, decide_eq_true_eq, Bool.not_eq_true', decide_eq_false_iff_not]
        constructor
        · exact fun hh => hh.1.1
        · intro hk
          have e1 : m.start = x.start := congrArg MtKey.start hk
          have e2 : m.stop = x.stop := congrArg MtKey.stop hk
          have e3 : m.name = x.name := congrArg MtKey.name hk
          have e4 : m.value input = x.value input := congrArg MtKey.value hk
          have hw := hwf x hx
          have hmx := (maxEnd_ge input live).2 x hx
          refine ⟨⟨hk, by rw [e3]; exact hin, by rw [e3, e4]; exact hno1⟩, ⟨?_, ?_⟩, by rw [e3]; exact hq⟩
          · rw [e1, Nat.lt_min]; exact ⟨by omega, hpo.1⟩
          · rw [e2]; exact hpo.2
      omega

theorem ambInv (input : Str) (live : List Mt) (q : Option Str → Bool) (hwf : WellFormed input live) (parts : List Mt) :
    AmbInv input live q parts (parts.foldl (ambPart input live fun m => q m.name) {}) := by
  have gen : ∀ parts done st, AmbInv input live q done st →
      AmbInv input live q (done ++ parts) (parts.foldl (ambPart input live fun m => q m.name) st) := by
    intro parts
    induction parts with
    | nil => intro done st h; simpa using h
    | cons part parts ih =>
      intro done st h
      have := ih (done ++ [part]) _ (AmbInv.step (part := part) hwf h)
      simpa using this
  have h0 : AmbInv input live q [] {} := by
    refine ⟨by simp, ?_, by simp, by simp⟩
    intro n v
    constructor
    · intro h; simp at h
    · rintro ⟨home, ⟨pre, post, h, _⟩, _⟩; simp at h
  simpa using gen parts [] _ h0

theorem isHome_unique {live : List Mt} {q : Option Str → Bool} {parts : List Mt} {n : Option Str} {a b : Mt}
    (ha : IsHome live q parts n a) (hb : IsHome live q parts n b) : a = b := by
  obtain ⟨pre, post, e1, h1, h2⟩ := ha
  obtain ⟨pre', post', e2, h3, h4⟩ := hb
  rw [e1] at e2
  induction pre generalizing pre' parts with
  | nil => cases pre' with
    | nil => cases e2; rfl
    | cons x pre' => cases e2; exact absurd h1 (h4 a (by simp))
  | cons y pre ih => cases pre' with
    | nil => cases e2; exact absurd h3 (h2 b (by simp))
    | cons x pre' =>
      simp only [List.cons_append, List.cons.injEq] at e2
      exact ih (parts := pre ++ a :: post) rfl (fun p hp => h2 p (by simp [hp])) pre' e2.2 (fun p hp => h4 p (by simp [hp]))

/-- The two halves of C33 for any order of the parts. -/
theorem ambRemove_spec (input : Str) (live : List Mt) (q : Option Str → Bool) (hwf : WellFormed input live) (parts : List Mt) :
    let live' := removeAll input live (ambRemove input live (fun m => q m.name) parts)
    live'.Sublist live ∧
    (∀ home, ∀ m ∈ live, Overlaps home m → IsHome live q parts m.name home → m ∈ live') ∧
    (∀ m ∈ live, (q m.name = false ∨ ∀ part ∈ parts, ¬ PartHas live q part m.name) → m ∈ live') ∧
    (∀ m ∈ live', q m.name = true → (∃ part ∈ parts, Overlaps part m) →
      ∃ home, IsHome live q parts m.name home ∧ ∃ m' ∈ live', Overlaps home m' ∧ m'.name = m.name ∧ m'.value input = m.value input) := by
  intro live'
  have inv := ambInv input live q hwf parts
  have keep : ∀ home, ∀ m ∈ live, Overlaps home m → IsHome live q parts m.name home → m ∈ live' := by
    intro home m hm ho hh
    refine removeAll_stays hm ?_
    intro x hx hk
    obtain ⟨_, h2⟩ := inv.sound x hx
    have e3 : x.name = m.name := congrArg MtKey.name hk
    have e4 : x.value input = m.value input := congrArg MtKey.value hk
    rw [e3, e4] at h2
    exact h2 ((inv.values _ _).2 ⟨home, hh, m, hm, ho, rfl, rfl⟩)
  refine ⟨removeAll_sublist _ _ _, keep, ?_, ?_⟩
  · intro m hm hno
    refine removeAll_stays hm ?_
    intro x hx hk
    obtain ⟨h1, _⟩ := inv.sound x hx
    obtain ⟨part, hp, hh⟩ := (inv.previous _).1 h1
    have e3 : x.name = m.name := congrArg MtKey.name hk
    rw [e3] at hh
    rcases hno with hno | hno
    · rw [hh.1] at hno; exact absurd hno (by simp)
    · exact hno part hp hh
  · intro m hm hq hex
    have hml : m ∈ live := removeAll_subset hm
    have hv : (m.name, m.value input) ∈ (parts.foldl (ambPart input live fun m => q m.name) {}).values := by
      refine Classical.byContradiction fun hn => ?_
      exact removeAll_gone (inv.complete m hml hq hex hn) m hm rfl
    obtain ⟨home, hh, m', hm', ho, hn, hvv⟩ := (inv.values _ _).1 hv
    exact ⟨home, hh, m', keep home m' hm' ho (hn ▸ hh), ho, hn, hvv⟩

/-- C33 (`RemoveAmbiguous`): matches are only removed; every match of the most valuable part in which its property occurs
is kept, and so is every match outside all parts; and each remaining value of a property also occurs, still, in that most
valuable part. -/
theorem C33_ambiguous (s : Ms) (hwf : WellFormed s.input s.live) :
    let parts := markerSorted s.input s.live (named s.markers c!"path") (markerPredicate s.input)
    let all : Option Str → Bool := fun _ => true
    let live' := (removeAmbiguous s).live
    live'.Sublist s.live ∧
    (∀ home, ∀ m ∈ s.live, Overlaps home m → IsHome s.live all parts m.name home → m ∈ live') ∧
    (∀ m ∈ s.live, (∀ part ∈ parts, ¬ PartHas s.live all part m.name) → m ∈ live') ∧
    (∀ m ∈ live', (∃ part ∈ parts, Overlaps part m) →
      ∃ home, IsHome s.live all parts m.name home ∧
        ∃ m' ∈ live', Overlaps home m' ∧ m'.name = m.name ∧ m'.value s.input = m.value s.input) := by
  intro parts all live'
  obtain ⟨h1, h2, h3, h4⟩ := ambRemove_spec s.input s.live (fun _ => true) hwf parts
  exact ⟨h1, h2, fun m hm hh => h3 m hm (Or.inr hh), fun m hm hh => h4 m hm rfl hh⟩

/-- C33 (`RemoveLessSpecificSeasonEpisode`): the same for one property, the order of the parts being given by the
occurrences of that property tagged `SxxExx`; no other property is touched. -/
theorem C33_less_specific (name : Str) (s : Ms) (hwf : WellFormed s.input s.live) :
    let parts := markerSorted s.input s.live (named s.markers c!"path").reverse
      (fun m => m.name = some name && m.tags.contains c!"SxxExx")
    let it : Option Str → Bool := fun n => n = some name
    let live' := (removeLessSpecific name s).live
    live'.Sublist s.live ∧
    (∀ m ∈ s.live, m.name ≠ some name → m ∈ live') ∧
    (∀ home, ∀ m ∈ s.live, Overlaps home m → m.name = some name → IsHome s.live it parts (some name) home → m ∈ live') ∧
    (∀ m ∈ live', m.name = some name → (∃ part ∈ parts, Overlaps part m) →
      ∃ home, IsHome s.live it parts (some name) home ∧
        ∃ m' ∈ live', Overlaps home m' ∧ m'.name = some name ∧ m'.value s.input = m.value s.input) := by
  intro parts it live'
  obtain ⟨h1, h2, h3, h4⟩ := ambRemove_spec s.input s.live it hwf parts
  refine ⟨h1, fun m hm hn => h3 m hm (Or.inl (by simpa [it] using hn)), fun home m hm ho hn hh => h2 home m hm ho (hn ▸ hh), ?_⟩
  intro m hm hn hex
  obtain ⟨home, a, m', b, c, d, e⟩ := h4 m hm (by simpa [it] using hn) hex
  exact ⟨home, hn ▸ a, m', b, c, d.trans hn, e⟩

/-- The season in the directory differs from the one in the more valuable file name: it goes, the others stay. -/
def ambExample : Ms :=
  let d : Mt := { id := 0, start := 0, stop := 1, name := some c!"season", val := some (.int 1) }
  let f : Mt := { id := 1, start := 2, stop := 3, name := some c!"season", val := some (.int 2) }
  let e : Mt := { id := 2, start := 4, stop := 5, name := some c!"episode", val := some (.int 3) }
  ⟨c!"1/2x3", [d, f, e], [{ id := 3, start := 0, stop := 1, name := some c!"path" }, { id := 4, start := 2, stop := 5, name := some c!"path" }]⟩

example : (removeAmbiguous ambExample).live.map Mt.id = [1, 2] ∧ (removeLessSpecific c!"season" ambExample).live.map Mt.id = [0, 2] := by
  decide

example : WellFormed ambExample.input ambExample.live := by
  intro m hm
  simp only [ambExample, List.mem_cons, List.not_mem_nil, or_false] at hm
  rcases hm with rfl | rfl | rfl <;> decide

/-! ## C53: which part wins for a season or an episode -/

/-- The order in which `RemoveLessSpecificSeasonEpisode` considers the parts. -/
def specificOrder (name : Str) (s : Ms) : List Mt :=
  markerSorted s.input s.live (named s.markers c!"path").reverse (fun m => m.name = some name && m.tags.contains c!"SxxExx")

/-- The part has an occurrence of the property written like `S01E02`. -/
def Tagged (s : Ms) (name : Str) (part : Mt) : Prop :=
  ∃ m ∈ s.live, Overlaps part m ∧ m.name = some name ∧ c!"SxxExx" ∈ m.tags

theorem tagged_weight (s : Ms) (name : Str) (hwf : WellFormed s.input s.live) (part : Mt) :
    markerWeight s.input s.live part (fun m => m.name = some name && m.tags.contains c!"SxxExx") =
      (if (rangeOf s.input s.live part.start part.stop fun m => m.name = some name && m.tags.contains c!"SxxExx").isEmpty then 0 else 1) ∧
    ((rangeOf s.input s.live part.start part.stop fun m => m.name = some name && m.tags.contains c!"SxxExx").isEmpty = false ↔
      Tagged s name part) := by
  have hall : ∀ m ∈ rangeOf s.input s.live part.start part.stop (fun m => m.name = some name && m.tags.contains c!"SxxExx"),
      m.name = some name := by
    intro m hm
    have := (mem_rangeOf.1 hm).2.2.2.2
    simp only [Bool.and_eq_true, decide_eq_true_eq] at this
    exact this.1
  constructor
  · unfold markerWeight
    generalize rangeOf s.input s.live part.start part.stop (fun m => m.name = some name && m.tags.contains c!"SxxExx") = l at hall
    induction l with
    | nil => rfl
    | cons x l ih =>
      have ih := ih (fun m hm => hall m (by simp [hm]))
      simp only [List.map_cons, countDistinct, List.isEmpty_cons, Bool.false_eq_true, if_false]
      cases l with
      | nil => simp [countDistinct]
      | cons y l =>
        have hx := hall x (by simp)
        have hy := hall y (by simp)
        rw [if_pos (by simp [hx, hy]), ih]; rfl
  · rw [List.isEmpty_eq_false_iff_exists_mem]
    constructor
    · rintro ⟨m, hm⟩
      have := mem_rangeOf.1 hm
      have h2 := this.2.2.2.2
      simp only [Bool.and_eq_true, decide_eq_true_eq, List.contains_iff_mem] at h2
      exact ⟨m, this.1, ⟨this.2.2.1, this.2.2.2.1⟩, h2.1, h2.2⟩
    · rintro ⟨m, hm, ho, h1, h2⟩
      refine ⟨m, (mem_rangeOf' (hwf m hm).1).2 ⟨hm, ho.1, ho.2, ?_⟩⟩
      simp [h1, h2]

/-- C53: a part with an occurrence written like `S01E02` is considered before any part without. -/
theorem C53_tagged_first (name : Str) (s : Ms) (hwf : WellFormed s.input s.live)
    (hnd : ((named s.markers c!"path").map (Mt.key s.input)).Nodup) (a b : Mt)
    (ha : a ∈ named s.markers c!"path") (hb : b ∈ named s.markers c!"path") (ht : Tagged s name b) (hu : ¬ Tagged s name a) :
    ¬ ∃ pre mid post, specificOrder name s = pre ++ a :: mid ++ b :: post := by
  intro h
  have hnd' : ((named s.markers c!"path").reverse.map (Mt.key s.input)).Nodup := by
    rw [List.map_reverse, List.nodup_reverse]; exact hnd
  obtain ⟨i, hi⟩ := List.mem_iff_getElem?.1 (List.mem_reverse.2 ha)
  obtain ⟨j, hj⟩ := List.mem_iff_getElem?.1 (List.mem_reverse.2 hb)
  have := C34_order s.input s.live _ _ hnd' i j a b hi hj h
  obtain ⟨wa, ta⟩ := tagged_weight s name hwf a
  obtain ⟨wb, tb⟩ := tagged_weight s name hwf b
  have ha0 : ((rangeOf s.input s.live a.start a.stop fun m => m.name = some name && m.tags.contains c!"SxxExx").isEmpty) = true := by
    rw [← Bool.not_eq_false]; exact fun hh => hu (ta.1 hh)
  have hb0 := tb.2 ht
  rw [ha0, if_pos rfl] at wa
  rw [hb0, if_neg (by simp)] at wb
  omega

/-- C53, the part of the documented order that does not hold: with no (or only) `S01E02` spellings, the documentation says
the rightmost part wins; the code considers the leftmost part first. -/
theorem C53_leftmost_partial (name : Str) (s : Ms) (hwf : WellFormed s.input s.live)
    (hnd : ((named s.markers c!"path").map (Mt.key s.input)).Nodup) (i j : Nat) (a b : Mt)
    (hi : (named s.markers c!"path")[i]? = some a) (hj : (named s.markers c!"path")[j]? = some b)
    (hsame : Tagged s name a ↔ Tagged s name b) (h : ∃ pre mid post, specificOrder name s = pre ++ a :: mid ++ b :: post) :
    i < j := by
  have hnd' : ((named s.markers c!"path").reverse.map (Mt.key s.input)).Nodup := by
    rw [List.map_reverse, List.nodup_reverse]; exact hnd
  have hli : i < (named s.markers c!"path").length := (List.getElem?_eq_some_iff.1 hi).1
  have hlj : j < (named s.markers c!"path").length := (List.getElem?_eq_some_iff.1 hj).1
  have hi' : (named s.markers c!"path").reverse[(named s.markers c!"path").length - 1 - i]? = some a := by
    rw [List.getElem?_reverse (by omega), ← hi]; congr 1; omega
  have hj' : (named s.markers c!"path").reverse[(named s.markers c!"path").length - 1 - j]? = some b := by
    rw [List.getElem?_reverse (by omega), ← hj]; congr 1; omega
  have := C34_order s.input s.live _ _ hnd' _ _ a b hi' hj' h
  obtain ⟨wa, ta⟩ := tagged_weight s name hwf a
  obtain ⟨wb, tb⟩ := tagged_weight s name hwf b
  have hiff : (rangeOf s.input s.live a.start a.stop fun m => m.name = some name && m.tags.contains c!"SxxExx").isEmpty =
      (rangeOf s.input s.live b.start b.stop fun m => m.name = some name && m.tags.contains c!"SxxExx").isEmpty := by
    cases h1 : (rangeOf s.input s.live a.start a.stop fun m => m.name = some name && m.tags.contains c!"SxxExx").isEmpty <;>
    cases h2 : (rangeOf s.input s.live b.start b.stop fun m => m.name = some name && m.tags.contains c!"SxxExx").isEmpty <;> try rfl
    · rw [tb.2 (hsame.1 (ta.1 h1))] at h2; exact absurd h2 (by simp)
    · rw [ta.2 (hsame.2 (tb.1 h2))] at h1; exact absurd h1 (by simp)
  rw [hiff, ← wb] at wa
  omega

/-- C53: the documented preference for the rightmost part fails: of two untagged seasons the left one is kept. -/
theorem C53_rightmost_counterexample :
    ∃ s : Ms, WellFormed s.input s.live ∧ (∀ part, ¬ Tagged s c!"season" part) ∧
      (named s.live c!"season").map Mt.start = [0, 2] ∧
      (named (removeLessSpecific c!"season" s).live c!"season").map Mt.start = [0] := by
  refine ⟨ambExample, ?_, ?_, by decide, by decide⟩
  · intro m hm
    simp only [ambExample, List.mem_cons, List.not_mem_nil, or_false] at hm
    rcases hm with rfl | rfl | rfl <;> decide
  · rintro part ⟨m, hm, _, _, h⟩
    simp only [ambExample, List.mem_cons, List.not_mem_nil, or_false] at hm
    rcases hm with rfl | rfl | rfl <;> simp at h

/-- With a tag the right one is kept. -/
example : let s := { ambExample with live := ambExample.live.map fun m => if m.id = 1 then { m with tags := [c!"SxxExx"] } else m }
    (named (removeLessSpecific c!"season" s).live c!"season").map Mt.start = [2] := by decide

end Guessit
