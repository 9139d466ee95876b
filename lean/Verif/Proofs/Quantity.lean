import Verif.Spec.Quantity
import Verif.Proofs.Date
import Verif.Props.Numeral

namespace Guessit
open Spec Re

/-! ### regular expression heads -/

theorem opt_nil {r : Re} {s : Str} {i : Nat} {c : Caps} (h : r.exec s i c = []) : (Re.opt r).exec s i c = [(i, c)] := by
  unfold Re.opt
  simp [exec, repExec, h]

theorem opt_head {r : Re} {s : Str} {i j : Nat} {c c' : Caps} (h : (r.exec s i c).head? = some (j, c')) (hj : j ≠ i) :
    ((Re.opt r).exec s i c).head? = some (j, c') := by
  unfold Re.opt
  simp only [exec, Option.getD_some, repExec, if_true]
  cases hl : r.exec s i c with
  | nil => rw [hl] at h; cases h
  | cons x l =>
    rw [hl] at h
    simp only [List.head?_cons, Option.some.injEq] at h
    subst h
    simp [List.filter_cons, hj]

theorem seq_head {a b : Re} {s : Str} {i j k : Nat} {c c1 c2 : Caps} (h1 : (a.exec s i c).head? = some (k, c1))
    (h2 : (b.exec s k c1).head? = some (j, c2)) : ((Re.seq a b).exec s i c).head? = some (j, c2) := by
  rw [exec]; exact head_flatMap h1 h2

theorem grp_head {n : Nat} {r : Re} {s : Str} {i j : Nat} {c c1 : Caps} (h : (r.exec s i c).head? = some (j, c1)) :
    ((Re.grp n r).exec s i c).head? = some (j, (n, (i, j)) :: c1) := by
  rw [exec, List.head?_map, h]; rfl

theorem eps_head {s : Str} {i : Nat} {c : Caps} : (Re.eps.exec s i c).head? = some (i, c) := rfl

theorem chr_head {p : Char → Bool} {s : Str} {i : Nat} {c : Caps} {x : Char} (h : s[i]? = some x) (hp : p x = true) :
    ((Re.chr p).exec s i c).head? = some (i + 1, c) := by
  simp [exec, h, hp]

theorem AllIn_of_append {p : Char → Bool} {pre ds post : Str} (h : ∀ c ∈ ds, p c = true) :
    AllIn (pre ++ ds ++ post) p pre.length (pre.length + ds.length) := by
  intro k h1 h2
  have hk : k - pre.length < ds.length := by omega
  refine ⟨ds[k - pre.length], ?_, h _ (List.getElem_mem hk)⟩
  rw [List.append_assoc, List.getElem?_append_right h1, List.getElem?_append_left hk, List.getElem?_eq_getElem hk]

/-- Greedy repetition over a maximal run in the middle of a text. -/
theorem rep_run_head {p : Char → Bool} {pre ds post : Str} {c : Caps} {m : Nat} (hm : m ≤ ds.length) (h : ∀ c ∈ ds, p c = true)
    (hpost : ∀ x, post.head? = some x → p x = false) :
    ((Re.rep (.chr p) m none).exec (pre ++ ds ++ post) pre.length c).head? = some (pre.length + ds.length, c) := by
  apply rep_chr_head (by simp) (by omega) (AllIn_of_append h)
  intro x hx
  apply hpost
  rw [List.getElem?_append_right (by simp)] at hx
  rw [List.head?_eq_getElem?, ← hx]; congr 1; simp

theorem chr_nil {p : Char → Bool} {s : Str} {i : Nat} {c : Caps} (h : ∀ x, s[i]? = some x → p x = false) :
    (Re.chr p).exec s i c = [] := by
  rw [List.eq_nil_iff_forall_not_mem]
  rintro ⟨j, c'⟩ hm
  rw [mem_chr] at hm
  obtain ⟨⟨x, hx, hp⟩, _⟩ := hm
  rw [h x hx] at hp; cases hp

theorem seq_nil {a b : Re} {s : Str} {i : Nat} {c : Caps} (h : ∀ k c1, (k, c1) ∈ a.exec s i c → b.exec s k c1 = []) :
    (Re.seq a b).exec s i c = [] := by
  rw [List.eq_nil_iff_forall_not_mem]
  rintro ⟨j, c'⟩ hm
  rw [mem_seq] at hm
  obtain ⟨k, c1, h1, h2⟩ := hm
  rw [h k c1 h1] at h2; cases h2

/-- `ds` followed by `.`, digits or nothing: an integer or decimal magnitude. -/
inductive MagText (u : Uni) : Str → Prop
  | int (ds : Str) : ds ≠ [] → (∀ c ∈ ds, u.isDigit c = true) → MagText u ds
  | dec (ds fs : Str) : ds ≠ [] → (∀ c ∈ ds, u.isDigit c = true) → fs ≠ [] → (∀ c ∈ fs, u.isDigit c = true) →
      MagText u (ds ++ '.' :: fs)

theorem exec_magnitude {u : Uni} (hdot : u.isDigit '.' = false) {m us : Str} (hm : MagText u m) (hus : us ≠ [])
    (hun : ∀ c ∈ us, u.isDigit c = false) :
    (quantityRe u).matchAt (m ++ us) 0 =
      some ((m ++ us).length, [(2, (m.length, m.length + us.length)), (1, (0, m.length))]) := by
  have hunits : ∀ c : Caps, ((Re.opt (.grp 2 (.rep (.chr fun c => !u.isDigit c) 1 none))).exec (m ++ us) m.length c).head? =
      some (m.length + us.length, (2, (m.length, m.length + us.length)) :: c) := by
    intro c
    have hpos := List.length_pos_iff.2 hus
    apply opt_head _ (by omega)
    apply grp_head
    have := @rep_run_head (fun c => !u.isDigit c) m us [] c 1 hpos (fun x hx => by simp [hun x hx]) (by simp)
    simpa using this
  obtain ⟨x, r, hxr⟩ := List.exists_cons_of_ne_nil hus
  have hx : u.isDigit x = false := hun x (by simp [hxr])
  have hmag : ((Re.grp 1 (.cat [.rep (.chr u.isDigit) 1 none, .opt (.cat [.lit '.', .rep (.chr u.isDigit) 1 none])])).exec
      (m ++ us) 0 []).head? = some (m.length, [(1, (0, m.length))]) := by
    apply grp_head
    cases hm with
    | int _ hne hd =>
      have hpos := List.length_pos_iff.2 hne
      refine seq_head (k := m.length) (c1 := []) ?_ ?_
      · have := @rep_run_head u.isDigit [] m us [] 1 hpos hd (by intro y hy; rw [hxr] at hy; simp at hy; subst hy; exact hx)
        simpa using this
      · refine seq_head (k := m.length) (c1 := []) ?_ eps_head
        rw [opt_nil]
        · rfl
        · apply seq_nil
          intro k c1 hk
          unfold Re.lit at hk
          rw [mem_chr] at hk
          obtain ⟨⟨y, hy, hyp⟩, rfl, rfl⟩ := hk
          apply seq_nil
          intro k' c2 hk'
          exfalso
          have hy' : y = '.' := by simpa using hyp
          rw [List.getElem?_append_right (Nat.le_refl _), Nat.sub_self] at hy
          have hlt : 0 < us.length := List.length_pos_iff.2 hus
          rw [mem_rep_chr (by rw [List.length_append]; omega)] at hk'
          obtain ⟨_, h2, h3⟩ := hk'
          obtain ⟨z, hz, hzp⟩ := h3 (m.length + 1) (Nat.le_refl _) (by omega)
          rw [List.getElem?_append_right (by omega)] at hz
          rw [hun z (List.mem_of_getElem? hz)] at hzp; cases hzp
    | dec ds fs hne hd hfne hf =>
      have hpos := List.length_pos_iff.2 hne
      have hfpos := List.length_pos_iff.2 hfne
      refine seq_head (k := ds.length) (c1 := []) ?_ ?_
      · have := @rep_run_head u.isDigit [] ds ('.' :: fs ++ us) [] 1 hpos hd (by intro y hy; simp at hy; subst hy; exact hdot)
        simpa using this
      · refine seq_head (k := (ds ++ '.' :: fs).length) (c1 := []) ?_ eps_head
        apply opt_head _ (by simp)
        refine seq_head (k := ds.length + 1) (c1 := []) ?_ ?_
        · unfold Re.lit
          apply chr_head (x := '.')
          · simp
          · simp
        · refine seq_head (k := (ds ++ '.' :: fs).length) (c1 := []) ?_ eps_head
          have := @rep_run_head u.isDigit (ds ++ ['.']) fs us [] 1 hfpos hf
            (by intro y hy; rw [hxr] at hy; simp at hy; subst hy; exact hx)
          simp only [List.append_assoc, List.singleton_append, List.length_append, List.length_singleton] at this ⊢
          simp only [List.length_cons, List.cons_append]
          rw [show ds.length + (fs.length + 1) = ds.length + 1 + fs.length by omega]
          exact this
  unfold Re.matchAt quantityRe
  simp only [Re.cat] at hmag ⊢
  refine seq_head hmag ?_
  refine seq_head (hunits _) ?_
  simp [exec]

/-- What a match of `parser_re` gives. -/
theorem match_magnitude {u : Uni} {s : Str} {e : Nat} {caps : Caps} (h : (quantityRe u).matchAt s 0 = some (e, caps)) :
    ∃ a, MagText u (textOf s 0 a) ∧ caps.lookup 1 = some (0, a) ∧
      (caps.lookup 2 = none ∨ ∃ b, caps.lookup 2 = some (a, b) ∧ a < b ∧ textOf s a b ≠ [] ∧
        ∀ c ∈ textOf s a b, u.isDigit c = false) := by
  have hm := matchAt_mem h
  unfold quantityRe at hm
  simp only [Re.cat, mem_seq, mem_grp, mem_eps] at hm
  obtain ⟨k1, c1, ⟨c2, ⟨k2, c3, h3, k3, c4, h4, rfl, rfl⟩, rfl⟩, k5, c6, h6, rfl, rfl⟩ := hm
  rw [mem_rep_chr (Nat.zero_le _)] at h3
  obtain ⟨rfl, h31, h32⟩ := h3
  have hk2 := h32.le (by omega)
  obtain ⟨h33, h34⟩ := AllIn_text (by omega) h32
  have hmag : c2 = [] ∧ k2 ≤ k1 ∧ k1 ≤ s.length ∧ MagText u (textOf s 0 k1) := by
    rcases mem_opt h4 with ⟨rfl, rfl⟩ | h4
    · refine ⟨rfl, Nat.le_refl _, hk2, MagText.int _ ?_ h34⟩
      intro h0; rw [h0] at h33; simp at h33; omega
    · simp only [mem_seq, Re.lit, mem_eps] at h4
      obtain ⟨k6, c7, h7, k8, c9, h9, rfl, rfl⟩ := h4
      rw [mem_chr] at h7
      obtain ⟨⟨x, hx, hxp⟩, rfl, rfl⟩ := h7
      have hx' : x = '.' := by simpa using hxp
      subst hx'
      have := (List.getElem?_eq_some_iff.1 hx).1
      rw [mem_rep_chr (by omega)] at h9
      obtain ⟨rfl, h91, h92⟩ := h9
      obtain ⟨h93, h94⟩ := AllIn_text (by omega) h92
      refine ⟨rfl, by omega, h92.le (by omega), ?_⟩
      rw [textOf_append s (i := 0) (k := k2) (by omega) (by omega), textOf_append s (i := k2) (k := k2 + 1) (by omega) (by omega),
        textOf_char hx]
      refine MagText.dec _ _ ?_ h34 ?_ h94
      · intro h0; rw [h0] at h33; simp at h33; omega
      · intro h0; rw [show textOf s (k2 + 1) k1 = [] from h0] at h93; simp at h93; omega
  obtain ⟨rfl, hle, hk1, hmag⟩ := hmag
  refine ⟨k1, hmag, ?_⟩
  rcases mem_opt h6 with ⟨rfl, rfl⟩ | h6
  · exact ⟨rfl, Or.inl rfl⟩
  · rw [mem_grp] at h6
    obtain ⟨c8, h8, rfl⟩ := h6
    rw [mem_rep_chr hk1] at h8
    obtain ⟨rfl, h81, h82⟩ := h8
    obtain ⟨h83, h84⟩ := AllIn_text (by omega) h82
    refine ⟨rfl, Or.inr ⟨e, rfl, by omega, ?_, ?_⟩⟩
    · intro h0; rw [h0] at h83; simp at h83; omega
    · intro c hc; simpa using h84 c hc

/-! ### numbers as text -/

theorem digitChar_facts : ∀ d, d < 10 → (digitChar d).toNat < 128 ∧ '0' ≤ digitChar d ∧ digitChar d ≤ '9' ∧ (digitChar d).toNat - 48 = d := by
  decide

theorem isDigit_digitChar {env : QEnv} (ht : AsciiTables env) {d : Nat} (hd : d < 10) : env.u.digit (digitChar d) = some d := by
  obtain ⟨h1, h2, h3, h4⟩ := digitChar_facts d hd
  rw [ht.digit _ h1, if_pos ⟨h2, h3⟩, h4]

theorem natTextF_spec {env : QEnv} (ht : AsciiTables env) (f n : Nat) (h : n < f) :
    natTextF f n ≠ [] ∧ (∀ c ∈ natTextF f n, env.u.isDigit c = true) ∧ Ascii (natTextF f n) ∧ digitsValue env.u (natTextF f n) = n := by
  induction f generalizing n with
  | zero => omega
  | succ f ih =>
    simp only [natTextF]
    split
    · rename_i hn
      have hdc := isDigit_digitChar ht hn
      refine ⟨by simp, ?_, ?_, ?_⟩
      · intro c hc; simp only [List.mem_singleton] at hc; subst hc; simp [Uni.isDigit, hdc]
      · intro c hc; simp only [List.mem_singleton] at hc; subst hc; exact (digitChar_facts n hn).1
      · simp [digitsValue, hdc]
    · rename_i hn
      have hmod : n % 10 < 10 := Nat.mod_lt _ (by omega)
      obtain ⟨h1, h2, h3, h4⟩ := ih (n / 10) (by omega)
      have hdc := isDigit_digitChar ht hmod
      refine ⟨by simp, ?_, ?_, ?_⟩
      · intro c hc
        rcases List.mem_append.1 hc with hc | hc
        · exact h2 c hc
        · simp only [List.mem_singleton] at hc; subst hc; simp [Uni.isDigit, hdc]
      · intro c hc
        rcases List.mem_append.1 hc with hc | hc
        · exact h3 c hc
        · simp only [List.mem_singleton] at hc; subst hc; exact (digitChar_facts _ hmod).1
      · unfold digitsValue at h4 ⊢
        rw [List.foldl_append, h4]
        simp [hdc]; omega

theorem pyInt_of_digits {env : QEnv} (ds : Str) (hne : ds ≠ []) (h : ∀ c ∈ ds, env.u.isDigit c = true)
    (hsp : ∀ c ∈ ds, env.u.space c = false) (hsign : env.u.digit '-' = none ∧ env.u.digit '+' = none) :
    pyInt env.u ds = .ok (digitsValue env.u ds) := by
  have e1 : ds.dropWhile env.u.space = ds := by
    cases ds with
    | nil => rfl
    | cons c ds => rw [List.dropWhile_cons, if_neg]; simp [hsp c (by simp)]
  have e2 : ds.reverse.dropWhile env.u.space = ds.reverse := by
    cases hr : ds.reverse with
    | nil => rfl
    | cons c r =>
      rw [List.dropWhile_cons, if_neg]
      have : c ∈ ds := by rw [← List.mem_reverse, hr]; simp
      simp [hsp c this]
  have hb := intBody_digits env.u ds h 0 hne false
  unfold pyInt
  simp only [e1, e2, List.reverse_reverse]
  split
  · rename_i n he
    split at he
    · have := h '-' (by simp)
      simp [Uni.isDigit, hsign.1] at this
    · have := h '+' (by simp)
      simp [Uni.isDigit, hsign.2] at this
    · rw [hb] at he
      simp only [Option.map_some, Option.some.injEq] at he
      rw [← he]; rfl
  · rename_i he
    split at he
    · have := h '-' (by simp)
      simp [Uni.isDigit, hsign.1] at this
    · have := h '+' (by simp)
      simp [Uni.isDigit, hsign.2] at this
    · rw [hb] at he; simp at he

end Guessit
