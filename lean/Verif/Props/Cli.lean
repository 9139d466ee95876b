import Verif.Model.Cli
import Verif.Props.Options
import Verif.Props.Api

/-! # C43, C44: the command line -/

namespace Guessit
open Spec

/-! ## C44 -/

theorem applyOcc_get (ns : Dict) (o : Occ) (k : Key) (h : k ≠ .str o.dest) : (applyOcc ns o).get? k = ns.get? k := by
  unfold applyOcc
  split
  · rfl
  · split
    · simp [h]
    · simp [h]
    · split <;> simp [h]

theorem applyOcc_wf {ns : Dict} (h : ns.WF) (o : Occ) : (applyOcc ns o).WF := by
  unfold applyOcc
  split
  · exact h
  · split
    · exact Dict.set_wf h _ _
    · exact Dict.set_wf h _ _
    · split <;> exact Dict.set_wf h _ _

theorem foldl_occ_get (occs : List Occ) : ∀ (ns : Dict) (k : Key), (∀ o ∈ occs, k ≠ .str o.dest) →
    (occs.foldl applyOcc ns).get? k = ns.get? k := by
  induction occs with
  | nil => intro ns k _; rfl
  | cons o occs ih =>
    intro ns k h
    rw [List.foldl_cons, ih _ _ (fun x hx => h x (by simp [hx])), applyOcc_get _ _ _ (h o (by simp))]

theorem foldl_occ_wf (occs : List Occ) : ∀ (ns : Dict), ns.WF → (occs.foldl applyOcc ns).WF := by
  induction occs with
  | nil => intro ns h; exact h
  | cons o occs ih => intro ns h; exact ih _ (applyOcc_wf h o)

theorem table_get (k : Key) (v : PyVal) : ∀ l : List ArgSpec, k ≠ .str c!"filename" → k ≠ .str c!"output_input_string" →
    (∀ a ∈ l, a.dest = c!"output_input_string" ∨ a.default = .none) →
    Dict.get? (l.map (fun a => (Key.str a.dest, a.default)) ++ [(Key.str c!"filename", v)]) k =
      if ∃ a ∈ l, k = .str a.dest then some .none else none := by
  intro l h0 h1
  induction l with
  | nil => intro _; simp [Dict.get?_cons, Dict.get?_nil, h0]
  | cons a l ih =>
    intro hl
    rw [List.map_cons, List.cons_append, Dict.get?_cons]
    by_cases hk : k = .str a.dest
    · rw [if_pos hk, if_pos ⟨a, by simp, hk⟩]
      rcases hl a (by simp) with h | h
      · exact absurd (by rw [hk, h]) h1
      · rw [h]
    · rw [if_neg hk, ih (fun x hx => hl x (by simp [hx]))]
      have : (∃ x ∈ a :: l, k = .str x.dest) ↔ ∃ x ∈ l, k = .str x.dest := by simp [hk]
      simp only [this]

theorem defaults_get (names : List Str) (k : Key) : Dict.get? (argTable.map (fun a => (Key.str a.dest, a.default)) ++
    [(Key.str c!"filename", PyVal.list (names.map .str))]) k =
      if k = .str c!"filename" then some (.list (names.map .str))
      else if k = .str c!"output_input_string" then some (.bool false)
      else if ∃ a ∈ argTable, k = .str a.dest then some .none else none := by
  by_cases h0 : k = .str c!"filename"
  · subst h0; rfl
  · by_cases h1 : k = .str c!"output_input_string"
    · subst h1; rfl
    · rw [if_neg h0, if_neg h1]
      refine table_get k _ argTable h0 h1 ?_
      intro a ha
      simp only [argTable, List.mem_cons, List.not_mem_nil, or_false] at ha
      rcases ha with h | h | h | h | h | h | h | h | h | h | h | h | h | h | h | h | h | h | h | h | h | h | h | h | h | h <;>
        subst h <;> first | exact Or.inr rfl | exact Or.inl rfl

theorem defaults_wf (names : List Str) : Dict.WF (argTable.map (fun a => (Key.str a.dest, a.default)) ++
    [(Key.str c!"filename", PyVal.list (names.map .str))]) := by
  show (List.map Prod.fst _).Nodup
  have : List.map Prod.fst (argTable.map (fun a => (Key.str a.dest, a.default)) ++
      [(Key.str c!"filename", PyVal.list (names.map .str))]) = argTable.map (fun a => Key.str a.dest) ++ [Key.str c!"filename"] := by
    simp
  rw [this]; decide

theorem namespace_wf (names : List Str) (occs : List Occ) : (parseNamespace names occs).WF :=
  foldl_occ_wf occs _ (defaults_wf names)

/-- The destinations of the option table never include `pristine`. -/
theorem applyOcc_pristine (ns : Dict) (o : Occ) : (applyOcc ns o).get? kPristine = ns.get? kPristine := by
  by_cases h : kPristine = .str o.dest
  · have ho : o.dest = c!"pristine" := by simpa [kPristine] using h.symm
    unfold applyOcc
    rw [ho]
    rw [show argTable.find? (fun a => a.dest = c!"pristine") = none from by decide]
  · exact applyOcc_get ns o _ h

theorem namespace_pristine (names : List Str) (occs : List Occ) : (parseNamespace names occs).getD kPristine = .none := by
  have : ∀ (occs : List Occ) (ns : Dict), (occs.foldl applyOcc ns).get? kPristine = ns.get? kPristine := by
    intro occs
    induction occs with
    | nil => intro ns; rfl
    | cons o occs ih => intro ns; rw [List.foldl_cons, ih, applyOcc_pristine]
  rw [Dict.getD, parseNamespace, this, defaults_get]
  have h : ¬ ∃ a ∈ argTable, kPristine = .str a.dest := by decide
  rw [if_neg (by decide), if_neg (by decide), if_neg h]; rfl

/-- C44: merging the command line into the configuration leaves every option that was not given as the configuration
defines it; the exceptions are the list of names, which is always given, and `output_input_string`. -/
theorem C44_absent_options_partial (config : Dict) (names : List Str) (occs : List Occ) (m : Dict) (option : Str)
    (hp : option ≠ c!"pristine") (hf : option ≠ c!"filename") (ho : option ≠ c!"output_input_string")
    (habs : ∀ o ∈ occs, o.dest ≠ option)
    (h : mergeOptions [.dict config, .dict (parseNamespace names occs)] = .ok m) :
    m.get? (.str option) = config.get? (.str option) := by
  refine C01_null_never_overrides config _ m (.str option) (by simpa using hp) (namespace_wf names occs) ?_ ?_ h
  · rw [parseNamespace, foldl_occ_get occs _ _ (fun o ho' he => habs o ho' (by simpa using he.symm)), defaults_get,
      if_neg (by simpa using hf), if_neg (by simpa using ho)]
    unfold Silent
    split <;> simp
  · have := namespace_pristine names occs
    unfold kPristine at this
    rw [this]; simp [Resets]

/-- C44 is false for `output_input_string`: the parser's default is `False` rather than `None`, so a configuration that
turns it on is overridden by a command line (or option string) that does not mention it. -/
theorem C44_counterexample_output_input_string :
    ∃ (config m : Dict), config.get? (.str c!"output_input_string") = some (.bool true) ∧
      mergeOptions [.dict config, .dict (parseNamespace [] [])] = .ok m ∧
      m.get? (.str c!"output_input_string") = some (.bool false) :=
  ⟨[(.str c!"output_input_string", .bool true)],
    [(.str c!"output_input_string", .bool false), (.str c!"filename", .list [])], rfl, rfl, rfl⟩

/-- The options of the command line that are flags, that take one argument, and that may be repeated. -/
def flagOptions : List Str :=
  [c!"name_only", c!"date_year_first", c!"date_day_first", c!"episode_prefer_number", c!"verbose", c!"advanced",
   c!"single_value", c!"enforce_list", c!"json", c!"yaml", c!"output_input_string", c!"no_user_config", c!"no_default_config",
   c!"properties", c!"values", c!"version"]
def singleOptions : List Str := [c!"type", c!"input_file", c!"show_property"]
def listOptions : List Str :=
  [c!"allowed_languages", c!"allowed_countries", c!"expected_title", c!"expected_group", c!"includes", c!"excludes", c!"config"]

theorem table_find {option : Str} {act : ArgAction} (h : ∃ a ∈ argTable, a.dest = option ∧ a.action = act) :
    ∃ b, argTable.find? (fun x => x.dest = option) = some b ∧ b.action = act := by
  obtain ⟨a, ha, rfl, hact⟩ := h
  have hdec : ∀ a ∈ argTable, (argTable.find? (fun x => x.dest = a.dest)).map ArgSpec.action = some a.action := by decide
  obtain ⟨b, h1, h2⟩ := Option.map_eq_some_iff.1 (hdec a ha)
  exact ⟨b, h1, by rw [h2, hact]⟩

theorem flag_in_table : ∀ o ∈ flagOptions, ∃ a ∈ argTable, a.dest = o ∧ a.action = .storeTrue := by decide
theorem single_in_table : ∀ o ∈ singleOptions, ∃ a ∈ argTable, a.dest = o ∧ a.action = .store := by decide
theorem list_in_table : ∀ o ∈ listOptions, ∃ a ∈ argTable, a.dest = o ∧ a.action = .append := by decide

/-- Every option of the parser is of one of the three kinds. -/
theorem C44_kinds : ∀ a ∈ argTable, a.dest ∈ flagOptions ∨ a.dest ∈ singleOptions ∨ a.dest ∈ listOptions := by decide

theorem not_pristine {option : Str} (h : ∃ a ∈ argTable, a.dest = option) : option ≠ c!"pristine" := by
  obtain ⟨a, ha, rfl⟩ := h
  have : ∀ a ∈ argTable, a.dest ≠ c!"pristine" := by decide
  exact this a ha

/-- C44: a flag that was given is set in the merged options (unless the configuration defines it as a list or a
dictionary). -/
theorem C44_given_flag (config : Dict) (names : List Str) (before after : List Occ) (m : Dict) (option arg : Str)
    (hflag : option ∈ flagOptions) (hs : ∀ v, config.get? (.str option) = some v → Scalar v)
    (h : mergeOptions [.dict config, .dict (parseNamespace names (before ++ ⟨option, arg⟩ :: after))] = .ok m) :
    m.get? (.str option) = some (.bool true) := by
  obtain ⟨b, h1, h2⟩ := table_find (flag_in_table option hflag)
  obtain ⟨a, ha, hd, _⟩ := flag_in_table option hflag
  refine C01_scalar_is_replaced config _ m (.str option) (.bool true) (by simpa using not_pristine ⟨a, ha, hd⟩)
    (namespace_wf _ _) hs ?_ (by simp) h
  have hset : ∀ (ns : Dict) (arg : Str), (applyOcc ns ⟨option, arg⟩).get? (.str option) = some (.bool true) := by
    intro ns arg
    unfold applyOcc
    simp only
    rw [h1]
    simp only [h2, Dict.get?_set, if_true]
  have hkeep : ∀ (after : List Occ) (ns : Dict), ns.get? (.str option) = some (.bool true) →
      (after.foldl applyOcc ns).get? (.str option) = some (.bool true) := by
    intro after
    induction after with
    | nil => intro ns h; exact h
    | cons o after ih =>
      intro ns hns
      rw [List.foldl_cons]
      apply ih
      by_cases ho : o.dest = option
      · obtain ⟨d, ar⟩ := o
        dsimp only at ho
        subst ho
        exact hset ns ar
      · rw [applyOcc_get _ _ _ (by simpa using fun h => ho h.symm)]; exact hns
  rw [parseNamespace, List.foldl_append, List.foldl_cons]
  exact hkeep after _ (hset _ _)

/-- C44: an option with one argument takes the last one given. -/
theorem C44_given_value (config : Dict) (names : List Str) (before after : List Occ) (m : Dict) (option arg : Str)
    (hsingle : option ∈ singleOptions) (hlast : ∀ o ∈ after, o.dest ≠ option)
    (hs : ∀ v, config.get? (.str option) = some v → Scalar v)
    (h : mergeOptions [.dict config, .dict (parseNamespace names (before ++ ⟨option, arg⟩ :: after))] = .ok m) :
    m.get? (.str option) = some (.str arg) := by
  obtain ⟨b, h1, h2⟩ := table_find (single_in_table option hsingle)
  obtain ⟨a, ha, hd, _⟩ := single_in_table option hsingle
  refine C01_scalar_is_replaced config _ m (.str option) (.str arg) (by simpa using not_pristine ⟨a, ha, hd⟩)
    (namespace_wf _ _) hs ?_ (by simp) h
  rw [parseNamespace, List.foldl_append, List.foldl_cons,
    foldl_occ_get after _ _ (fun o ho' he => hlast o ho' (by simpa using he.symm))]
  unfold applyOcc
  simp only
  rw [h1]
  simp only [h2, Dict.get?_set, if_true]

/-- The arguments given to an option, in order. -/
def argumentsOf (option : Str) (occs : List Occ) : List Str := (occs.filter fun o => o.dest = option).map Occ.arg

/-- C44: a repeatable option holds all the arguments given to it, in order. -/
theorem C44_given_list (names : List Str) (occs : List Occ) (option : Str) (hlist : option ∈ listOptions)
    (hsome : ∃ o ∈ occs, o.dest = option) :
    (parseNamespace names occs).get? (.str option) = some (.list ((argumentsOf option occs).map .str)) := by
  obtain ⟨b, h1, h2⟩ := table_find (list_in_table option hlist)
  have hstep : ∀ (ns : Dict) (arg : Str) (l : List PyVal),
      (ns.getD (.str option) = .list l ∨ (ns.getD (.str option) = .none ∧ l = [])) →
      (applyOcc ns ⟨option, arg⟩).get? (.str option) = some (.list (l ++ [.str arg])) := by
    intro ns arg l hl
    unfold applyOcc
    simp only
    rw [h1]
    simp only [h2]
    rcases hl with hl | ⟨hl, rfl⟩ <;> rw [hl] <;> simp
  have hgen : ∀ (occs : List Occ) (ns : Dict) (l : List PyVal),
      (ns.getD (.str option) = .list l ∨ (ns.getD (.str option) = .none ∧ l = [])) →
      (occs.foldl applyOcc ns).getD (.str option) = .list (l ++ (argumentsOf option occs).map .str) ∨
        ((∀ o ∈ occs, o.dest ≠ option) ∧ l = []) := by
    intro occs
    induction occs with
    | nil =>
      rintro ns l (hl | hl)
      · left; simpa [argumentsOf] using hl
      · right; simpa using hl.2
    | cons o occs ih =>
      intro ns l hl
      rw [List.foldl_cons]
      by_cases ho : o.dest = option
      · obtain ⟨d, ar⟩ := o
        dsimp only at ho
        subst ho
        rcases ih _ (l ++ [.str ar]) (Or.inl (by rw [Dict.getD, hstep ns ar l hl]; rfl)) with h | h
        · left; rw [h]; simp [argumentsOf]
        · exact absurd h.2 (by simp)
      · have hk : (applyOcc ns o).getD (.str option) = ns.getD (.str option) := by
          rw [Dict.getD, Dict.getD, applyOcc_get _ _ _ (by simpa using fun h => ho h.symm)]
        rcases ih (applyOcc ns o) l (by rw [hk]; exact hl) with h | h
        · left; rw [h]; simp [argumentsOf, ho]
        · right; refine ⟨?_, h.2⟩
          intro x hx
          rcases List.mem_cons.1 hx with rfl | hx
          · exact ho
          · exact h.1 x hx
  have hne : option ≠ c!"filename" ∧ option ≠ c!"output_input_string" := by
    have : ∀ o ∈ listOptions, o ≠ c!"filename" ∧ o ≠ c!"output_input_string" := by decide
    exact this option hlist
  have hd := hgen occs (argTable.map (fun a => (Key.str a.dest, a.default)) ++ [(Key.str c!"filename", PyVal.list (names.map .str))]) []
    (Or.inr ⟨by
      rw [Dict.getD, defaults_get, if_neg (by simpa using hne.1), if_neg (by simpa using hne.2)]
      split <;> rfl, rfl⟩)
  rcases hd with h | h
  · rw [List.nil_append] at h
    unfold parseNamespace
    rw [Dict.getD] at h
    generalize hg : Dict.get? (List.foldl applyOcc _ occs) (Key.str option) = g at h ⊢
    cases g with
    | none => cases h
    | some v => simpa using h
  · obtain ⟨o, ho, he⟩ := hsome
    exact absurd he (h.1 o ho)

/-- `--excludes language -t movie --excludes country --advanced`. -/
example : let ns := parseNamespace [] [⟨c!"excludes", c!"language"⟩, ⟨c!"type", c!"movie"⟩, ⟨c!"excludes", c!"country"⟩, ⟨c!"advanced", []⟩]
    ns.get? (.str c!"excludes") = some (.list [.str c!"language", .str c!"country"]) ∧ ns.get? (.str c!"type") = some (.str c!"movie") ∧
      ns.get? (.str c!"advanced") = some (.bool true) := ⟨rfl, rfl, rfl⟩

/-! ## C43 -/

/-- The names guessed, in the order in which the guesses are shown. -/
def guessedNames (acts : List CliAct) : List NameArg := acts.filterMap fun
  | .guess n _ => some n
  | _ => none

theorem guessed_append (a b : List CliAct) : guessedNames (a ++ b) = guessedNames a ++ guessedNames b := by
  simp [guessedNames]

theorem guessAll_spec {R} (S : Sys R) (env : Env) (options : Dict) : ∀ (names : List Str) (st : Api R),
    (guessedNames (guessAllNames S env options st (names.map .str)).1 <+: names.map .str) ∧
    ((guessAllNames S env options st (names.map .str)).2 = none →
      guessedNames (guessAllNames S env options st (names.map .str)).1 = names.map .str) ∧
    (∀ a ∈ (guessAllNames S env options st (names.map .str)).1, ∃ n out, a = .guess n out) := by
  intro names
  induction names with
  | nil => intro st; simp [guessAllNames, guessedNames]
  | cons n names ih =>
    intro st
    simp only [List.map_cons, guessAllNames, cliName]
    cases hg : st.guessit S env (.str n) (.dict options) with
    | mk st' out =>
      cases out with
      | value v =>
        obtain ⟨h1, h2, h3⟩ := ih st'
        dsimp only
        refine ⟨?_, ?_, ?_⟩
        · simp only [guessedNames, List.filterMap_cons] at h1 ⊢
          exact List.cons_prefix_cons.2 ⟨rfl, h1⟩
        · intro hn
          have := h2 hn
          simp only [guessedNames, List.filterMap_cons] at this ⊢
          rw [this]
        · intro a ha
          rcases List.mem_cons.1 ha with rfl | ha
          · exact ⟨_, _, rfl⟩
          · exact h3 a ha
      | guessitException _ => simp [guessedNames]
      | raised e => simp [guessedNames]

theorem strs_filter (l : List Str) : (l.map PyVal.str).filter truthy = (l.filter (fun s => s ≠ [])).map PyVal.str := by
  induction l with
  | nil => rfl
  | cons s l ih =>
    cases s with
    | nil => simpa [truthy] using ih
    | cons c s => simpa [truthy] using ih

/-- What the run is asked to do: the merged options, the names given and the lines of the input file. -/
structure CliRun (u : Uni) (env : Env) (readLines : PyVal → Except PyErr (List Str)) (parsed : Dict) (merged : Dict)
    (given lines : List Str) : Prop where
  options : ∃ config, loadConfig env parsed = .ok config ∧ mergeOptions [.dict config, .dict parsed] = .ok merged
  given : merged.getD (.str c!"filename") = .list (given.map .str)
  lines : (truthy (merged.getD (.str c!"input_file")) = true ∧ readLines (merged.getD (.str c!"input_file")) = .ok lines) ∨
    (truthy (merged.getD (.str c!"input_file")) = false ∧ lines = [])

/-- The names to guess: the non-empty ones among those given, then the non-empty stripped lines. -/
def wantedNames (u : Uni) (given lines : List Str) : List Str := (given ++ lines.map u.strip).filter (fun s => s ≠ [])

theorem cliNames_eq {u : Uni} {readLines : PyVal → Except PyErr (List Str)} {options : Dict} {given lines : List Str}
    (hg : options.getD (.str c!"filename") = .list (given.map .str))
    (hl : (truthy (options.getD (.str c!"input_file")) = true ∧ readLines (options.getD (.str c!"input_file")) = .ok lines) ∨
      (truthy (options.getD (.str c!"input_file")) = false ∧ lines = [])) :
    cliNames u readLines options = .ok ((wantedNames u given lines).map .str) := by
  have h1 : iterOption options c!"filename" = .ok (given.map .str) := by
    unfold iterOption
    rw [hg]
    cases given with
    | nil => rfl
    | cons n g => rfl
  have h2 : (if truthy (options.getD (.str c!"input_file")) then readLines (options.getD (.str c!"input_file")) else .ok []) =
      .ok lines := by
    rcases hl with ⟨a, b⟩ | ⟨a, b⟩
    · rw [if_pos a, b]
    · rw [if_neg (by simp [a]), b]
  unfold cliNames
  rw [h1]
  dsimp only
  rw [h2]
  dsimp only
  have : given.map PyVal.str ++ lines.map (fun l => PyVal.str (u.strip l)) = (given ++ lines.map u.strip).map PyVal.str := by
    simp [List.map_map, Function.comp_def]
  rw [this, strs_filter, wantedNames]

/-- The shape of a run that is not stopped by `--properties`. -/
theorem cliMain_eq {R} (S : Sys R) (u : Uni) (env : Env) (readLines : PyVal → Except PyErr (List Str)) (st : Api R)
    (parsed merged : Dict) (given lines : List Str) (h : CliRun u env readLines parsed merged given lines) :
    ∃ (pre : List CliAct) (st1 : Api R) (options : Dict), guessedNames pre = [] ∧ (∀ a ∈ pre, a ≠ .help) ∧
      (cliMain S u env readLines st parsed = (pre, some (st.properties S env (.dict options)).2) ∨
       cliMain S u env readLines st parsed =
        (pre ++ (guessAllNames S env options st1 ((wantedNames u given lines).map .str)).1 ++
          (if !truthy (merged.getD (.str c!"version")) && !(truthy (merged.getD (.str c!"properties")) ||
            truthy (merged.getD (.str c!"values"))) && ((wantedNames u given lines).map PyVal.str).isEmpty then [CliAct.help] else []),
         (guessAllNames S env options st1 ((wantedNames u given lines).map .str)).2)) := by
  obtain ⟨⟨config, hc, hm⟩, hg, hl⟩ := h
  unfold cliMain
  rw [hc]
  dsimp only
  rw [hm]
  dsimp only
  generalize hopt : (if (truthy (merged.getD (.str c!"yaml")) && !env.yaml) = true then merged.del (.str c!"yaml") else merged) = options
  have hget : ∀ k : Str, k ≠ c!"yaml" → options.getD (.str k) = merged.getD (.str k) := by
    intro k hk
    rw [← hopt]
    split
    · have hk' : (Key.str k) ≠ .str c!"yaml" := by simpa using hk
      unfold Dict.getD; rw [Dict.get?_del, if_neg hk']
    · rfl
  rw [hget c!"properties" (by decide), hget c!"values" (by decide)]
  have hnames : cliNames u readLines options = .ok ((wantedNames u given lines).map .str) :=
    cliNames_eq (by rw [hget c!"filename" (by decide)]; exact hg) (by rw [hget c!"input_file" (by decide)]; exact hl)
  rw [hnames]
  dsimp only
  generalize hsp : (truthy (merged.getD (.str c!"properties")) || truthy (merged.getD (.str c!"values"))) = showProps
  generalize hpr : st.properties S env (.dict options) = props
  have hpre : guessedNames ((if truthy (merged.getD (.str c!"version")) = true then [CliAct.version] else []) ++
      (if (truthy (merged.getD (.str c!"yaml")) && !env.yaml) = true then [CliAct.yamlIgnored] else []) ++
      (if showProps = true then [CliAct.properties props.2] else [])) = [] := by
    simp only [guessed_append]
    split <;> split <;> split <;> rfl
  have hhelp : ∀ a ∈ ((if truthy (merged.getD (.str c!"version")) = true then [CliAct.version] else []) ++
      (if (truthy (merged.getD (.str c!"yaml")) && !env.yaml) = true then [CliAct.yamlIgnored] else []) ++
      (if showProps = true then [CliAct.properties props.2] else [])), a ≠ .help := by
    intro a ha
    simp only [List.mem_append] at ha
    rcases ha with (ha | ha) | ha <;> (split at ha <;> simp at ha <;> (subst ha; simp))
  refine ⟨_, (if showProps = true then props.1 else st), options, hpre, hhelp, ?_⟩
  cases showProps with
  | false => right; rfl
  | true =>
    cases hp2 : props.2 with
    | raised e => left; simp [hpr, hp2]
    | value v => right; simp
    | guessitException n => left; simp [hpr, hp2]

/-- C43: if the run ends without an exception, every non-empty name given and then every non-empty stripped line of the
input file was guessed, in order, once; in any case what was guessed is a beginning of that list. -/
theorem C43_guessed {R} (S : Sys R) (u : Uni) (env : Env) (readLines : PyVal → Except PyErr (List Str)) (st : Api R)
    (parsed merged : Dict) (given lines : List Str) (h : CliRun u env readLines parsed merged given lines)
    (hprop : (truthy (merged.getD (.str c!"properties")) || truthy (merged.getD (.str c!"values"))) = false ∨
      (cliMain S u env readLines st parsed).2 = none) :
    (guessedNames (cliMain S u env readLines st parsed).1 <+: (wantedNames u given lines).map .str) ∧
    ((cliMain S u env readLines st parsed).2 = none →
      guessedNames (cliMain S u env readLines st parsed).1 = (wantedNames u given lines).map .str) := by
  obtain ⟨pre, st1, options, hpre, _, hrun⟩ := cliMain_eq S u env readLines st parsed merged given lines h
  have hg := guessAll_spec S env options (wantedNames u given lines) st1
  rcases hrun with hrun | hrun
  · rw [hrun]
    rw [hrun] at hprop
    exact ⟨by rw [hpre]; exact List.nil_prefix, fun hn => by simp at hn⟩
  · rw [hrun]
    have hh : ∀ b : Bool, guessedNames (if b = true then [CliAct.help] else []) = [] := by
      intro b; cases b <;> rfl
    have key : guessedNames (pre ++ (guessAllNames S env options st1 ((wantedNames u given lines).map .str)).1 ++
        (if !truthy (merged.getD (.str c!"version")) && !(truthy (merged.getD (.str c!"properties")) ||
            truthy (merged.getD (.str c!"values"))) && ((wantedNames u given lines).map PyVal.str).isEmpty then [CliAct.help] else [])) =
        guessedNames (guessAllNames S env options st1 ((wantedNames u given lines).map .str)).1 := by
      rw [guessed_append, guessed_append, hpre, hh]; simp
    exact ⟨by rw [key]; exact hg.1, fun hn => by rw [key]; exact hg.2.1 hn⟩

/-- C43: help is shown iff nothing else was asked for: no version, no properties or values, and no name to guess. -/
theorem C43_help {R} (S : Sys R) (u : Uni) (env : Env) (readLines : PyVal → Except PyErr (List Str)) (st : Api R)
    (parsed merged : Dict) (given lines : List Str) (h : CliRun u env readLines parsed merged given lines)
    (hok : (cliMain S u env readLines st parsed).2 = none) :
    CliAct.help ∈ (cliMain S u env readLines st parsed).1 ↔
      truthy (merged.getD (.str c!"version")) = false ∧ truthy (merged.getD (.str c!"properties")) = false ∧
      truthy (merged.getD (.str c!"values")) = false ∧ wantedNames u given lines = [] := by
  obtain ⟨pre, st1, options, hpre, hhelp, hrun⟩ := cliMain_eq S u env readLines st parsed merged given lines h
  rcases hrun with hrun | hrun
  · rw [hrun] at hok; cases hok
  · rw [hrun]
    have hg := (guessAll_spec S env options (wantedNames u given lines) st1).2.2
    have h1 : CliAct.help ∉ pre := fun hx => hhelp _ hx rfl
    have h2 : CliAct.help ∉ (guessAllNames S env options st1 ((wantedNames u given lines).map .str)).1 := by
      intro hx; obtain ⟨n, out, he⟩ := hg _ hx; cases he
    simp only [List.mem_append, h1, h2, false_or]
    generalize truthy (merged.getD (.str c!"version")) = a
    generalize truthy (merged.getD (.str c!"properties")) = b
    generalize truthy (merged.getD (.str c!"values")) = c
    cases a <;> cases b <;> cases c <;> cases hw : wantedNames u given lines <;> simp

/-- C43 from the command line itself: the names are those on the command line, when the configuration files define
neither names nor an input file. -/
theorem C43_from_command_line {R} (S : Sys R) (u : Uni) (env : Env) (readLines : PyVal → Except PyErr (List Str)) (st : Api R)
    (names : List Str) (occs : List Occ) (config merged : Dict)
    (hno : ∀ o ∈ occs, o.dest ≠ c!"filename" ∧ o.dest ≠ c!"input_file" ∧ o.dest ≠ c!"properties" ∧ o.dest ≠ c!"values")
    (hc : loadConfig env (parseNamespace names occs) = .ok config)
    (hk : ∀ k ∈ [c!"filename", c!"input_file", c!"properties", c!"values"], config.get? (.str k) = none)
    (hm : mergeOptions [.dict config, .dict (parseNamespace names occs)] = .ok merged)
    (hok : (cliMain S u env readLines st (parseNamespace names occs)).2 = none) :
    guessedNames (cliMain S u env readLines st (parseNamespace names occs)).1 =
      (names.filter (fun s => s ≠ [])).map .str := by
  have habs : ∀ k ∈ [c!"input_file", c!"properties", c!"values"], merged.getD (.str k) = .none := by
    intro k hk'
    have := C44_absent_options_partial config names occs merged k
      (by rintro rfl; revert hk'; decide) (by rintro rfl; revert hk'; decide) (by rintro rfl; revert hk'; decide)
      (by
        intro o ho he
        have := hno o ho
        subst he
        simp only [List.mem_cons, List.not_mem_nil, or_false] at hk'
        rcases hk' with h | h | h
        · exact this.2.1 h
        · exact this.2.2.1 h
        · exact this.2.2.2 h) hm
    have h2 := hk k (by
      simp only [List.mem_cons, List.not_mem_nil, or_false] at hk' ⊢
      exact Or.inr hk')
    rw [h2] at this
    simp [Dict.getD, this]
  have hfile : merged.getD (.str c!"filename") = .list (names.map .str) := by
    have := C01_scalar_is_replaced config (parseNamespace names occs) merged (.str c!"filename") (.list (names.map .str))
      (by decide) (namespace_wf _ _) (by intro w hw; rw [hk c!"filename" (by simp)] at hw; cases hw)
      (by
        rw [parseNamespace, foldl_occ_get occs _ _ (fun o ho he => (hno o ho).1 (by simpa using he.symm)), defaults_get]
        simp) (by simp) hm
    simp [Dict.getD, this]
  have hrun : CliRun u env readLines (parseNamespace names occs) merged names [] :=
    ⟨⟨config, hc, hm⟩, hfile, Or.inr ⟨by rw [habs c!"input_file" (by simp)]; rfl, rfl⟩⟩
  have := (C43_guessed S u env readLines st _ merged names [] hrun (Or.inr hok)).2 hok
  simpa [wantedNames] using this

/-! ### A concrete run: two names, an empty one, an input file with a blank line -/

def cliReadLines : PyVal → Except PyErr (List Str) := fun
  | .str s => if s = c!"list.txt" then .ok [c!"c.mkv", [], c!"d.mkv"] else .error .osError
  | _ => .error .typeError

-- `guessit a.mkv "" b.mkv -f list.txt -j` guesses a.mkv, b.mkv, c.mkv, d.mkv and ends without an exception
example (u : Uni) (h : ∀ s, u.strip s = s) :
    ∃ merged, CliRun u toyEnv cliReadLines
      (parseNamespace [c!"a.mkv", [], c!"b.mkv"] [⟨c!"input_file", c!"list.txt"⟩, ⟨c!"json", []⟩])
      merged [c!"a.mkv", [], c!"b.mkv"] [c!"c.mkv", [], c!"d.mkv"] ∧
      truthy (merged.getD (.str c!"properties")) = false ∧
      wantedNames u [c!"a.mkv", [], c!"b.mkv"] [c!"c.mkv", [], c!"d.mkv"] = [c!"a.mkv", c!"b.mkv", c!"c.mkv", c!"d.mkv"] :=
  ⟨_, ⟨⟨_, rfl, rfl⟩, rfl, Or.inl ⟨rfl, rfl⟩⟩, rfl, by simp [wantedNames, h]⟩

-- the same run, executed: it ends without an exception and shows the guesses and no help
example (u : Uni) (h : ∀ s, u.strip s = s) :
    (cliMain toySys u toyEnv cliReadLines Api.init
      (parseNamespace [c!"a.mkv", [], c!"b.mkv"] [⟨c!"json", []⟩])).2 = none := rfl

-- C44: a configuration with `type: movie` and a command line that does not mention `--type`
example : ∃ m, mergeOptions [.dict [(.str c!"type", .str c!"movie")], .dict (parseNamespace [c!"a"] [⟨c!"json", []⟩])] = .ok m ∧
    m.get? (.str c!"type") = some (.str c!"movie") ∧ m.get? (.str c!"json") = some (.bool true) := ⟨_, rfl, rfl, rfl⟩

end Guessit
