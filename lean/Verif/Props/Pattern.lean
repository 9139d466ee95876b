import Verif.Model.Finders
import Verif.Spec.Pattern
import Verif.Proofs.Regex

/-! # C46: alternation patterns -/

namespace Guessit
open Spec

theorem alt_append {X : Str → Re → Prop} {p q : Str} {r r' : Re} (hp : Alt X p r) (hq : Alt X q r') :
    ∃ r'', Alt X (p ++ '|' :: q) r'' ∧ ∀ s i c, r''.exec s i c = r.exec s i c ++ r'.exec s i c := by
  revert hp
  suffices H : ∀ n (p : Str) r, p.length ≤ n → Alt X p r → ∃ r'', Alt X (p ++ '|' :: q) r'' ∧
      ∀ s i c, r''.exec s i c = r.exec s i c ++ r'.exec s i c from fun hp => H p.length p r (Nat.le_refl _) hp
  intro n
  induction n with
  | zero =>
    intro p r hn hp
    cases hp with
    | one _ _ h => exact ⟨_, .or _ _ _ _ h hq, fun s i c => rfl⟩
    | or s t r q' h1 h2 => simp at hn
  | succ n ih =>
    intro p r hn hp
    cases hp with
    | one _ _ h => exact ⟨_, .or _ _ _ _ h hq, fun s i c => rfl⟩
    | or s t r1 q' h1 h2 =>
      obtain ⟨r'', h3, h4⟩ := ih t q' (by simp at hn; omega) h2
      refine ⟨.alt r1 r'', ?_, ?_⟩
      · have := Alt.or s _ r1 r'' h1 h3
        simpa using this
      · intro a b c
        simp only [Re.exec, h4, List.append_assoc]

/-- What precedes the alternatives. -/
def orHead (name : Option Str) : Str :=
  c!"(?" ++ (match name with | some (c :: n) => c!"P<" ++ (c :: n) ++ c!">" | _ => c!":")

theorem buildOrLoop_rest (name : Option Str) (escape : Bool) : ∀ (ps : List Str) (acc : Str),
    buildOrLoop name escape false acc ps = acc ++ ps.flatMap fun p =>
      '|' :: (if escape then c!"(?:" ++ reEscape p ++ c!")" else p) := by
  intro ps
  induction ps with
  | nil => intro acc; simp [buildOrLoop]
  | cons p ps ih => intro acc; simp [buildOrLoop, ih]

theorem buildOr_cons (name : Option Str) (escape : Bool) (p : Str) (ps : List Str) :
    buildOrPattern (p :: ps) name escape = orHead name ++ ((if escape then c!"(?:" ++ reEscape p ++ c!")" else p) ++
      ps.flatMap fun p => '|' :: (if escape then c!"(?:" ++ reEscape p ++ c!")" else p)) ++ c!")" := by
  simp only [buildOrPattern, buildOrLoop, buildOrLoop_rest, orHead]
  rcases name with _ | _ | _ <;> simp

theorem alt_list {X : Str → Re → Prop} : ∀ (ps : List (Str × Re)) (p : Str) (r : Re), Alt X p r → (∀ e ∈ ps, Alt X e.1 e.2) →
    ∃ r'', Alt X (p ++ ps.flatMap fun e => '|' :: e.1) r'' ∧
      ∀ s i c, r''.exec s i c = r.exec s i c ++ ps.flatMap fun e => e.2.exec s i c := by
  intro ps
  induction ps with
  | nil => intro p r hp _; exact ⟨r, by simpa using hp, by simp⟩
  | cons e ps ih =>
    intro p r hp h
    obtain ⟨r1, h1, h2⟩ := ih e.1 e.2 (h e (by simp)) (fun x hx => h x (by simp [hx]))
    obtain ⟨r2, h3, h4⟩ := alt_append hp h1
    refine ⟨r2, by simpa using h3, ?_⟩
    intro s i c
    rw [h4, h2]; simp

theorem atom_alt {X : Str → Re → Prop} {a : Str} {r : Re} (h : Atom X a r) :
    ∃ r', Alt X a r' ∧ ∀ s i c, r'.exec s i c = r.exec s i c :=
  ⟨.seq r .eps, .one _ _ (by simpa using Seq.cons a [] r .eps h .nil), by intro s i c; simp [Re.exec]⟩

/-- C46: an alternation pattern built from patterns that are valid on their own is itself a valid pattern, and it tries
exactly the alternatives, in the listed order (so its matches are exactly the union of theirs, with the same captures). -/
theorem C46_union (X : Str → Re → Prop) (alts : List (Str × Re)) (hne : alts ≠ []) (h : ∀ e ∈ alts, Alt X e.1 e.2) :
    ∃ r, Alt X (buildOrPattern (alts.map Prod.fst) none false) r ∧
      ∀ s i c, r.exec s i c = alts.flatMap fun e => e.2.exec s i c := by
  cases alts with
  | nil => exact absurd rfl hne
  | cons e ps =>
    obtain ⟨r1, h1, h2⟩ := alt_list ps e.1 e.2 (h e (by simp)) (fun x hx => h x (by simp [hx]))
    obtain ⟨r2, h3, h4⟩ := atom_alt (Atom.group _ _ h1)
    refine ⟨r2, ?_, fun s i c => by rw [h4, h2]; simp⟩
    rw [List.map_cons, buildOr_cons]
    simpa [orHead, List.flatMap_map] using h3

/-- C46: with a name, the same, and the whole match is captured under that name. -/
theorem C46_named (X : Str → Re → Prop) (name : Str) (hn : name ≠ []) (hg : '>' ∉ name) (alts : List (Str × Re))
    (hne : alts ≠ []) (h : ∀ e ∈ alts, Alt X e.1 e.2) :
    ∃ r, Alt X (buildOrPattern (alts.map Prod.fst) (some name) false) r ∧
      ∀ s i c, r.exec s i c = (alts.flatMap fun e => e.2.exec s i c).map fun x => (x.1, (1, (i, x.1)) :: x.2) := by
  cases alts with
  | nil => exact absurd rfl hne
  | cons e ps =>
    obtain ⟨r1, h1, h2⟩ := alt_list ps e.1 e.2 (h e (by simp)) (fun x hx => h x (by simp [hx]))
    obtain ⟨r2, h3, h4⟩ := atom_alt (Atom.named name _ _ hn hg h1)
    refine ⟨r2, ?_, fun s i c => by rw [h4]; simp only [Re.exec, h2]; simp⟩
    rw [List.map_cons, buildOr_cons]
    cases name with
    | nil => exact absurd rfl hn
    | cons c n => simpa [orHead, List.flatMap_map] using h3

theorem special_not_alnum : ∀ c ∈ reSpecial, c.isAlphanum = false := by decide
theorem metas_are_special : ∀ c ∈ metaChars, c ∈ reSpecial := by decide

theorem seq_escape (X : Str → Re → Prop) (p : Str) : Seq X (reEscape p) (.text p) := by
  induction p with
  | nil => exact .nil
  | cons c p ih =>
    have hc : reEscape (c :: p) = (if reSpecial.contains c then ['\\', c] else [c]) ++ reEscape p := by simp [reEscape]
    rw [hc, Re.text]
    refine .cons _ _ _ _ ?_ ih
    by_cases h : c ∈ reSpecial
    · rw [if_pos (by simpa using h)]; exact .esc c (special_not_alnum c h)
    · rw [if_neg (by simpa using h)]; exact .lit c (fun hm => h (metas_are_special c hm))

theorem mem_text_exec (p : Str) : ∀ (s : Str) (i j : Nat) (c c' : Caps),
    (j, c') ∈ (Re.text p).exec s i c ↔ c' = c ∧ j = i + p.length ∧ p.isPrefixOf (s.drop i) = true := by
  induction p with
  | nil => intro s i j c c'; simp [Re.text, Re.exec]; tauto
  | cons x p ih =>
    intro s i j c c'
    rw [Re.text, Re.mem_seq]
    constructor
    · rintro ⟨k, c1, h1, h2⟩
      obtain ⟨⟨y, hy, hp⟩, rfl, rfl⟩ := Re.mem_chr.1 h1
      obtain ⟨rfl, rfl, h3⟩ := (ih _ _ _ _ _).1 h2
      refine ⟨rfl, by simp; omega, ?_⟩
      have hi := (List.getElem?_eq_some_iff.1 hy).1
      have : s.drop i = s[i] :: s.drop (i + 1) := List.drop_eq_getElem_cons hi
      rw [this]
      have hy' : s[i] = y := (List.getElem?_eq_some_iff.1 hy).2
      simp only [decide_eq_true_eq] at hp
      simp [hy', hp, h3]
    · rintro ⟨rfl, rfl, h3⟩
      cases hd : s.drop i with
      | nil => rw [hd] at h3; simp at h3
      | cons y t =>
        rw [hd] at h3
        simp only [List.isPrefixOf, Bool.and_eq_true, beq_iff_eq] at h3
        have hi : i < s.length := by
          by_contra hc
          rw [List.drop_eq_nil_of_le (by omega)] at hd; cases hd
        have h' := List.drop_eq_getElem_cons hi
        rw [hd] at h'
        have e1 : y = s[i] := by injection h'
        have e2 : t = s.drop (i + 1) := by injection h'
        refine ⟨i + 1, c', Re.mem_chr.2 ⟨⟨s[i], List.getElem?_eq_getElem hi, by simp [← e1, h3.1]⟩, rfl, rfl⟩,
          (ih _ _ _ _ _).2 ⟨rfl, by simp; omega, by rw [← e2]; exact h3.2⟩⟩

/-- C46: with `escape`, whatever characters the texts contain, the pattern is valid and matches exactly the listed texts:
from `i` it can match up to `j` iff the characters from `i` to `j` are one of them. -/
theorem C46_escape (X : Str → Re → Prop) (texts : List Str) (hne : texts ≠ []) :
    ∃ r, Alt X (buildOrPattern texts none true) r ∧
      ∀ s i j, i ≤ s.length → (Matches r s i j ↔ i ≤ j ∧ j ≤ s.length ∧ (s.take j).drop i ∈ texts) := by
  have hat : ∀ p : Str, ∃ r', Alt X (c!"(?:" ++ reEscape p ++ c!")") r' ∧ ∀ s i c, r'.exec s i c = (Re.text p).exec s i c :=
    fun p => atom_alt (Atom.group _ _ (.one _ _ (seq_escape X p)))
  choose f hf1 hf2 using hat
  obtain ⟨r, h1, h2⟩ := C46_union X (texts.map fun p => (c!"(?:" ++ reEscape p ++ c!")", f p)) (by simpa using hne)
    (by intro e he; obtain ⟨p, _, rfl⟩ := List.mem_map.1 he; exact hf1 p)
  refine ⟨r, ?_, ?_⟩
  · cases texts with
    | nil => exact absurd rfl hne
    | cons p ps =>
      rw [buildOr_cons]
      simp only [List.map_cons, buildOr_cons, List.map_map, List.flatMap_map] at h1
      simpa [List.flatMap_map, Function.comp_def] using h1
  · intro s i j hi
    unfold Matches
    simp only [h2, List.flatMap_map, hf2, List.mem_flatMap, mem_text_exec]
    constructor
    · rintro ⟨c, p, hp, rfl, rfl, h3⟩
      have h4 := List.isPrefixOf_iff_prefix.1 h3
      have hlen := h4.length_le
      rw [List.length_drop] at hlen
      refine ⟨by omega, by omega, ?_⟩
      have : (s.take (i + p.length)).drop i = p := by
        rw [List.drop_take]
        have := List.prefix_iff_eq_take.1 h4
        rw [show i + p.length - i = p.length by omega]
        exact this.symm
      rw [this]; exact hp
    · rintro ⟨h3, h4, h5⟩
      refine ⟨[], _, h5, rfl, by simp; omega, ?_⟩
      rw [List.isPrefixOf_iff_prefix, List.drop_take]
      exact List.take_prefix _ _

/-! The grammar of `Spec/Pattern.lean` is unambiguous: a pattern text has one meaning. -/

abbrev noX : Str → Re → Prop := fun _ _ => False

/-- The rest of the text after an alternation inside a pattern: nothing, or a closing parenthesis. -/
def AltEnd (t : Str) : Prop := t = [] ∨ t.head? = some ')'
def SeqEnd (t : Str) : Prop := AltEnd t ∨ t.head? = some '|'

theorem atom_head {a : Str} {r : Re} (h : Atom noX a r) : ∃ c t, a = c :: t ∧ c ≠ ')' ∧ c ≠ '|' := by
  cases h with
  | lit c hc => exact ⟨c, [], rfl, fun h => hc (by rw [h]; decide), fun h => hc (by rw [h]; decide)⟩
  | esc c _ => exact ⟨'\\', [c], rfl, by decide, by decide⟩
  | group s r _ => exact ⟨'(', _, rfl, by decide, by decide⟩
  | named n s r _ _ _ => exact ⟨'(', _, rfl, by decide, by decide⟩
  | other _ _ h => exact h.elim

theorem split_at_gt {n n' t t' : Str} (hn : '>' ∉ n) (hn' : '>' ∉ n') (h : n ++ '>' :: t = n' ++ '>' :: t') : n = n' ∧ t = t' := by
  induction n generalizing n' with
  | nil =>
    cases n' with
    | nil => simpa using h
    | cons c n' => simp at h; exact absurd h.1.symm (by rintro rfl; simp at hn')
  | cons c n ih =>
    cases n' with
    | nil => simp at h; exact absurd h.1 (by rintro rfl; simp at hn)
    | cons c' n' =>
      simp only [List.cons_append, List.cons.injEq] at h
      obtain ⟨h1, h2⟩ := ih (fun hc => hn (by simp [hc])) (n' := n') (fun hc => hn' (by simp [hc])) h.2
      exact ⟨by rw [h.1, h1], h2⟩

theorem grammar_unique (n : Nat) :
    (∀ (a a' t t' : Str) r r', a.length ≤ n → Atom noX a r → Atom noX a' r' → a ++ t = a' ++ t' → a = a' ∧ r = r') ∧
    (∀ (a a' t t' : Str) r r', a.length ≤ n → Seq noX a r → Seq noX a' r' → SeqEnd t → SeqEnd t' → a ++ t = a' ++ t' →
      a = a' ∧ r = r') ∧
    (∀ (a a' t t' : Str) r r', a.length ≤ n → Alt noX a r → Alt noX a' r' → AltEnd t → AltEnd t' → a ++ t = a' ++ t' →
      a = a' ∧ r = r') := by
  induction n with
  | zero =>
    have hA : ∀ (a : Str) r, a.length ≤ 0 → ¬ Atom noX a r := by
      intro a r hl h
      obtain ⟨c, t, rfl, _⟩ := atom_head h
      simp at hl
    have hS : ∀ (a a' t t' : Str) r r', a.length ≤ 0 → Seq noX a r → Seq noX a' r' → SeqEnd t → SeqEnd t' →
        a ++ t = a' ++ t' → a = a' ∧ r = r' := by
      intro a a' t t' r r' hl h h' ht ht' he
      cases h with
      | nil =>
        cases h' with
        | nil => exact ⟨rfl, rfl⟩
        | cons b s q q' hb hs =>
          obtain ⟨c, u, rfl, h1, h2⟩ := atom_head hb
          simp only [List.nil_append] at he
          subst he
          rcases ht with (h | h) | h
          · simp at h
          · simp at h; exact absurd h h1
          · simp at h; exact absurd h h2
      | cons b s q q' hb hs =>
        obtain ⟨c, u, rfl, h1, h2⟩ := atom_head hb
        simp at hl
    refine ⟨fun a a' t t' r r' hl h => absurd h (hA a r hl), hS, ?_⟩
    intro a a' t t' r r' hl h h' ht ht' he
    cases h with
    | one _ _ h =>
      cases h' with
      | one _ _ h' => exact hS _ _ _ _ _ _ hl h h' (Or.inl ht) (Or.inl ht') he
      | or s u q q' hs hu =>
        rw [List.append_assoc] at he
        obtain ⟨h1, -⟩ := hS _ _ _ _ _ _ hl h hs (Or.inl ht) (Or.inr (by simp)) he
        subst h1
        rw [List.append_cancel_left he] at ht
        rcases ht with h | h <;> simp at h
    | or s u q q' hs hu => simp at hl
  | succ n ih =>
    obtain ⟨ihA, ihS, ihL⟩ := ih
    have hA : ∀ (a a' t t' : Str) r r', a.length ≤ n + 1 → Atom noX a r → Atom noX a' r' → a ++ t = a' ++ t' →
        a = a' ∧ r = r' := by
      intro a a' t t' r r' hl h h' he
      cases h with
      | lit c hc =>
        cases h' with
        | lit c' hc' => simp at he; rw [he.1]; exact ⟨rfl, rfl⟩
        | esc c' _ => simp at he; exact absurd (by rw [he.1]; decide) hc
        | group s q _ => simp at he; exact absurd (by rw [he.1]; decide) hc
        | named m s q _ _ _ => simp at he; exact absurd (by rw [he.1]; decide) hc
        | other _ _ h => exact h.elim
      | esc c hc =>
        cases h' with
        | lit c' hc' => simp at he; exact absurd (by rw [← he.1]; decide) hc'
        | esc c' _ => simp at he; rw [he.1]; exact ⟨rfl, rfl⟩
        | group s q _ => simp at he
        | named m s q _ _ _ => simp at he
        | other _ _ h => exact h.elim
      | group s q hs =>
        cases h' with
        | lit c' hc' => simp at he; exact absurd (by rw [← he.1]; decide) hc'
        | esc c' _ => simp at he
        | group s' q' hs' =>
          have he2 : s ++ (')' :: t) = s' ++ (')' :: t') := by simpa using he
          obtain ⟨h1, h2⟩ := ihL _ _ _ _ _ _ (by simp at hl; omega) hs hs' (Or.inr rfl) (Or.inr rfl) he2
          exact ⟨by rw [h1], h2⟩
        | named m s q _ _ _ => simp at he
        | other _ _ h => exact h.elim
      | named m s q hm hg hs =>
        cases h' with
        | lit c' hc' => simp at he; exact absurd (by rw [← he.1]; decide) hc'
        | esc c' _ => simp at he
        | group s' q' hs' => simp at he
        | named m' s' q' hm' hg' hs' =>
          have he2 : m ++ '>' :: (s ++ (')' :: t)) = m' ++ '>' :: (s' ++ (')' :: t')) := by simpa using he
          obtain ⟨h0, he3⟩ := split_at_gt hg hg' he2
          obtain ⟨h1, h2⟩ := ihL _ _ _ _ _ _ (by simp at hl; omega) hs hs' (Or.inr rfl) (Or.inr rfl) he3
          exact ⟨by rw [h0, h1], by rw [h2]⟩
        | other _ _ h => exact h.elim
      | other _ _ h => exact h.elim
    have hS : ∀ (a a' t t' : Str) r r', a.length ≤ n + 1 → Seq noX a r → Seq noX a' r' → SeqEnd t → SeqEnd t' →
        a ++ t = a' ++ t' → a = a' ∧ r = r' := by
      intro a a' t t' r r' hl h h' ht ht' he
      cases h with
      | nil =>
        cases h' with
        | nil => exact ⟨rfl, rfl⟩
        | cons b s q q' hb hs =>
          obtain ⟨c, u, rfl, h1, h2⟩ := atom_head hb
          simp only [List.nil_append] at he
          subst he
          rcases ht with (h | h) | h
          · simp at h
          · simp at h; exact absurd h h1
          · simp at h; exact absurd h h2
      | cons b s q q' hb hs =>
        cases h' with
        | nil =>
          obtain ⟨c, u, rfl, h1, h2⟩ := atom_head hb
          simp only [List.nil_append] at he
          subst he
          rcases ht' with (h | h) | h
          · simp at h
          · simp at h; exact absurd h h1
          · simp at h; exact absurd h h2
        | cons b' s' p p' hb' hs' =>
          simp only [List.append_assoc] at he
          obtain ⟨h1, h2⟩ := hA _ _ _ _ _ _ (by simp at hl; omega) hb hb' he
          subst h1
          have he2 := List.append_cancel_left he
          have hpos : 0 < b.length := by obtain ⟨c, u, rfl, _⟩ := atom_head hb; simp
          obtain ⟨h3, h4⟩ := ihS _ _ _ _ _ _ (by simp at hl; omega) hs hs' ht ht' he2
          exact ⟨by rw [h3], by rw [h2, h4]⟩
    refine ⟨hA, hS, ?_⟩
    intro a a' t t' r r' hl h h' ht ht' he
    cases h with
    | one _ _ h =>
      cases h' with
      | one _ _ h' => exact hS _ _ _ _ _ _ hl h h' (Or.inl ht) (Or.inl ht') he
      | or s u q q' hs hu =>
        rw [List.append_assoc] at he
        obtain ⟨h1, -⟩ := hS _ _ _ _ _ _ hl h hs (Or.inl ht) (Or.inr (by simp)) he
        subst h1
        rw [List.append_cancel_left he] at ht
        rcases ht with h | h <;> simp at h
    | or s u q q' hs hu =>
      cases h' with
      | one _ _ h' =>
        rw [List.append_assoc] at he
        obtain ⟨h1, -⟩ := hS _ _ _ _ _ _ (by simp at hl; omega) hs h' (Or.inr (by simp)) (Or.inl ht') he
        subst h1
        rw [← List.append_cancel_left he] at ht'
        rcases ht' with h | h <;> simp at h
      | or s' u' p p' hs' hu' =>
        rw [List.append_assoc, List.append_assoc] at he
        obtain ⟨h1, h2⟩ := hS _ _ _ _ _ _ (by simp at hl; omega) hs hs' (Or.inr (by simp)) (Or.inr (by simp)) he
        subst h1
        have he2 := List.append_cancel_left he
        simp only [List.cons_append, List.cons.injEq, true_and] at he2
        obtain ⟨h3, h4⟩ := ihL _ _ _ _ _ _ (by simp at hl; omega) hu hu' ht ht' he2
        exact ⟨by rw [h3], by rw [h2, h4]⟩

/-- C46 (sanity of the specification): a pattern text of the fragment denotes at most one pattern. -/
theorem C46_one_meaning (p : Str) (r r' : Re) (h : Alt (fun _ _ => False) p r) (h' : Alt (fun _ _ => False) p r') : r = r' :=
  ((grammar_unique p.length).2.2 p p [] [] r r' (Nat.le_refl _) h h' (Or.inl rfl) (Or.inl rfl) rfl).2

theorem alt_chars {s : Str} {r : Re} (h : Alt (fun _ _ => False) s r) : s.head? ≠ some ')' := by
  have hat : ∀ {a : Str} {r : Re}, Atom (fun _ _ => False) a r → ∃ c t, a = c :: t ∧ c ≠ ')' := by
    intro a r ha
    cases ha with
    | lit c hc => exact ⟨c, [], rfl, fun h => hc (by rw [h]; decide)⟩
    | esc c _ => exact ⟨'\\', [c], rfl, by decide⟩
    | group s r _ => exact ⟨'(', _, rfl, by decide⟩
    | named n s r _ _ _ => exact ⟨'(', _, rfl, by decide⟩
    | other _ _ h => exact h.elim
  have hseq : ∀ {a : Str} {r : Re}, Seq (fun _ _ => False) a r → a.head? ≠ some ')' := by
    intro a r ha
    cases ha with
    | nil => simp
    | cons a s r q h _ => obtain ⟨c, t, rfl, hc⟩ := hat h; simpa using hc
  cases h with
  | one _ _ h => exact hseq h
  | or s t r q h _ =>
    cases s with
    | nil => simp
    | cons c s => simpa using hseq h

/-- C46 (the limit): an empty list of alternatives gives a text that is no pattern at all. -/
theorem C46_empty_is_invalid (name : Option Str) (escape : Bool) :
    ¬ ∃ r, Alt (fun _ _ => False) (buildOrPattern [] name escape) r := by
  rintro ⟨r, h⟩
  exact alt_chars h (by simp [buildOrPattern, buildOrLoop])

example : buildOrPattern [c!"a.b", c!"c"] none true = c!"(?:(?:a\\.b)|(?:c))" := by decide
example : buildOrPattern [c!"a.b", c!"c"] (some c!"n") false = c!"(?P<n>a.b|c)" := by decide

end Guessit
