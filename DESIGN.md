# Formal model of guessit in Lean 4 — design

Kept current as the model grows.  The list of properties is `properties.jsonl`; which theorem proves which property is in
`MANIFEST.json` (generated by `tools/mkmanifest.py`); the axioms of each theorem are in `AXIOMS.md` (generated by
`tools/axioms.py`); wrong programs the theorems were tried against are in `seeded/LOG.jsonl` (run by `tools/mutate.py` on
`tools/mutants/*.json`).

## 1. Layout

* `lean/Verif/Py.lean` — the Python fragments used everywhere: strings as `List Char`, JSON-like values,
  insertion-ordered dictionaries, `==`, truthiness, `str.strip`, slicing, `in`, exceptions as values.
* `lean/Verif/Model/*.lean` — the model, function by function; every definition cites the file and lines of `/repo/guessit` it models.
* `lean/Verif/Spec/*.lean` — small specifications (plain vocabulary: "covers", "overlaps", "is a path part", ...) used by the
  statements; they do not mention the functions of the model.
* `lean/Verif/Proofs/*.lean` — helper lemmas.
* `lean/Verif/Props/*.lean` — the property theorems `Cnn_...`, with concrete cases that meet their hypotheses (`example`).

A theorem whose name contains `_partial` proves part of its property; `counterexample` marks a theorem that shows the
property, as stated, to be false of the code (a witness evaluated by the kernel).  The `note` in the manifest says what is missing.

## 2. Trusted base

* The Lean 4.33.0 kernel.  No axioms are added: every theorem depends on a subset of `propext`, `Classical.choice`,
  `Quot.sound` (see `AXIOMS.md`).  No compiled evaluation is trusted (`decide +kernel` asks the kernel to evaluate).
* The faithfulness of the translation from Python, definition by definition.  Simplifications are stated in the comment of the
  definition or in the header of the file, and listed in section 4.
* The contracts of code outside the repository, which enter as parameters (arbitrary functions) or as definitions:

| outside code | how it enters |
|---|---|
| rebulk (`Match`, `Matches`, `Rule`, consequences) | `Model/Matches.lean` defines the used part of its contract: equality of matches (span, value, name, parent), `named`, `range`, `starting`, `ending`, `at_match`, `at_index`, `previous`, `next`, `holes`, `chain_before/after`, `crop`, `split`, and `RemoveMatch`, `AppendMatch`, `RenameMatch`.  Parents, initiators, children and patterns of a match are given by an arbitrary `Kin`. |
| rebulk's search for patterns | rule theorems quantify over every list of matches and markers; `Model/Pipeline.lean` (C18, C27) lets the search find any matches the enabled declarations could give; `Model/Program.lean` is the search with every default declaration (`Model/Declared.lean`), its styles (`Model/Styles.lean`), parents and children (`Model/Families.lean`) |
| `re` / `regex` | a backtracking engine for the fragment needed by dates, roman numerals and alternations (`Model/Regex.lean`); the other regular expressions of the configuration are not modelled |
| babelfish | `Languages` / `Countries`: arbitrary tables |
| dateutil | arbitrary function from text and flags to a date or an exception |
| argparse | `Model/Cli.lean`: defaults, then the actions of the given options; its own parsing is a parameter; it may exit |
| json, yaml, file system | arbitrary functions in an environment record |
| floats, Unicode tables (`lower`, `isupper`, `isdigit`, ...) | arbitrary functions, with the assumptions written in each theorem (for example `lower "" = ""`) |
| `copy.deepcopy`, object identity | `Model/Heap.lean`, an explicit heap |

## 3. Plan per property

| id | what is modelled | how it is proved |
|----|------------------|------------------|
| C01–C06 | `merge_options` / `merge_option_value` on Python values with exceptions | one key-local characterisation (induction on items, mutual recursion on the value), corollaries; C06 fails with pristine (witness) |
| C07 | `load_config`, `load_config_file`, `get_options_file_locations` over an abstract environment | direct + merge lemmas |
| C08–C12 | `GuessItApi` as a state machine (`configure`, `guessit`, `properties`, `reset`), failures as values, arbitrary builder and matcher | invariants by induction over call histories; C09, C10, C12 false in part: witnesses |
| C13, C62 | the same functions over an explicit heap of shared objects | frame invariant: no cell that existed before is written; C62 false with shared lists (witness) |
| C14–C16, C52 | building of results, bytes/text conversion | list induction |
| C17 | `is_disabled` | decision logic |
| C18, C27 | all pattern declarations and rules as a nondeterministic engine over names and guards; `Props/Refine.lean` shows the modelled rules are among its steps | invariant over every run; leaks are witnesses |
| C19–C22, C36, C42, C45, C47, C50, C55 | string helpers, with Python negative indexing where the code has it | induction on strings, loop invariants |
| C23–C24 | `mark_path`, `mark_groups`, with the shared stack the code really has | loop invariant; same-kind brackets false (witness) |
| C25–C26 | roman-numeral regex as a recogniser, the greedy table loop, the other numerals | induction, finite tables lifted by lemmas |
| C28, C51 | date search with an abstract date parser, regexes by the backtracking engine | loop invariant over patterns and flags |
| C29–C30 | `Quantity` with abstract floats | algebra, parsing lemmas |
| C31–C41, C53–C54, C57–C60 | rules over the model of `Matches`: types, ranges, counts, completion, screen size, years, proper_count, ... | per-rule theorems for arbitrary lists of matches |
| C43–C44 | command line driver and argument defaults | list reasoning |
| C46 | `build_or_pattern` + regex semantics | denotational union |
| C48–C49, C56, C61 | `LanguageFinder`, `LanguageWord`, `CountryFinder` with abstract tables | list reasoning, run lemmas |
| C63–C72 | the rules that only drop matches (`Model/Validators.lean`, `Model/Removers.lean`) | for each rule an `iff`: dropped exactly when the documented condition holds, nothing else changes (`Spec.Drops`) |
| C73–C79 | `TitleBaseRule`, `TitleFromPosition` (`Model/Title.lean`): holes, cropping by groups, shrinking by ignored matches, splitting, joining, choice of part | interval lemmas (runs, crops, splits are sorted and cover what they should), invariant of the two shrinking loops |
| C80–C85 | the remaining rules of `episode_title.py`, `bonus.py`, `film.py`, with rebulk's `holes` in full (`Model/Holes.lean`) | exact characterisation of the first hole, case analysis |
| C86 | `clean_groupname`, string by string | sublist invariant through each stripping stage; exact results on name shapes; `decide` counterexamples for the suffix and edge bugs |
| C87 | `DashSeparatedReleaseGroup` | candidate at the end / start specified from the text and the spans (`Spec.EndGroup`, `Spec.StartGroup`), exact results of the rule under `PlainParts` |
| C88–C89 | `SceneReleaseGroup`, `AnimeReleaseGroup` | exact hole and neighbour specified on positions; fold over path elements with an independence lemma (what is dropped in one element does not matter to another); hypotheses on markers discharged for every input by `C23_state_laid` |
| C90–C92 | `WeakConflictSolver`, `RenameToAbsoluteEpisode`, `RenameToDiscMatch` | the loops rewritten as filters of the matches found, then `Reworks` (dropped, changed, kept) with conditions on positions, tags and parents |
| C93, C95, C97 | `PostProcessScreenSize`, `BitRateTypeRule`, `RenameAnotherToOther`, `RemoveLanguage` | exact condition for raising; pointwise relation between lists; renaming and dropping lemmas |
| C94 | `UltraHdBlurayRule` | matches are hidden while the loop goes on: the state is proved to be the initial one with a set hidden, and hiding in one element is proved irrelevant to another |
| C96 | the three rules on languages of subtitles | one loop lemma for the first two (with the `ValueError` of `matches.remove`); order of matches and hidden ones for the third |
| C98–C100 | `config/__init__.py` (`Model/Patterns.lean`): the loader as a state machine over the import cache, with the object loaded returned as it is after loading | a relational specification of what an entry stands for (`Spec.Reads`, `Spec.EntryCalls`), soundness and completeness by induction on the list of entries, cache invariant over histories |
| C101 | the babelfish converters with abstract babelfish | a table filled by assignments is the last assignment; `iff` with a declarative meaning of names |
| C102 | a process: several API objects, one registry (`Process`) | invariant over histories; simulation of each object by itself |
| C103–C105 | `__main__.py` printing (`Model/Print.lean`): `json.dumps` written out (escapes, separators, indentation), the guess and properties listings; float texts and the YAML dumper are parameters | an independent RFC 8259 reader (`Spec/Print.lean`) reads back what is printed: mutual induction on the value; one reading only |
| C106 | rebulk's `ConflictSolver` for arbitrary solvers (`Model/Solver.lean`) | the loop is a fold over ordered pairs; invariants (no pair of survivors in conflict, each dropped match yields to one dropped later or never), induction along the list of dropped matches |
| C107 | the seventeen solvers guessit attaches to its patterns | an inductive table of claims (`Spec/Trades.lean`), equivalence with the solvers, finite analysis of the pairs of patterns lifted by names |
| C108 | registration, priorities and dependencies of all rules; rebulk's `effective_rules` and `execute_all_rules` | the scheduler as a function (stable sort, groups, layers with fuel = size), invariant of the layers, deadlock ⇔ error; a depth function shows that no exclusion creates a circle |
| C109–C111 | the same, with the `disabled` and `enabled` guards | transitive order by induction; evaluation of the schedule for two option sets; congruence in the guards |
| C112 | `match_advanced`, the `advanced` branch of `to_dict` and of `GuessItApi.guessit` | C15's loop invariant applied to descriptions; distinct values through distinct descriptions by induction |
| C113–C117 | the regular expressions of crc32, year, week, bonus, film, cd and the rebulk machinery that applies them (finditer, groups as children, validators) with Python's backtracking semantics | the set of reported matches is characterised by an iff: each pattern's possible ends at a position, the first that backtracking finds, and that no accepted match is hidden by the scan |
| C118 | `numeral` under IGNORECASE, `part` | case folding reduces the Roman pattern to C25's; which alternative backtracking takes is decided word by word; values by C26 |
| C119 | the patterns of size.py and of the bit_rate entry of options.json over the matcher of `Model/Rx`, with `Quantity.fromstring` of `Model/Quantity` as formatter; exactness (iff) against `Spec/Amounts` |
| C120, C121 | `find_all` with `ignore_case`, the string and extension patterns of container.py | completeness of a leftmost non-overlapping search for words that no occurrence of themselves can hide; uniqueness of the extension from the absence of dots in it |
| C122 | `Model/Screen`: the five regular expressions of screen_size.py with `foundWithin` (a match and its children); `Spec/Screen.SizeAt` | membership of every form, the first way to match is the longest (`form_greedy`), its pieces are unique; permuted alternatives match the same |
| C123 | `Model/Screen.ratePattern` and `Quantity.fromstring` (C119) | exact; no frame rate starts inside another one |
| C124 | `Model/Website`: the three patterns of website.py and the reading of the extensions; the 300 default extensions are in the model | membership in the results of nested repetitions as chains of steps (`mem_rep_steps`); finditer covers every place where the pattern matches (`hits_cover`) |
| C125–C127 | `Model/Chain`: rebulk's `Chain._match` (search, repeaters, chain breaker) and `Chain._match_parent` (last parts given up until valid) as far as the four SxxExx chains of episodes.py use them, and these chains | invariants over the list of chained matches; the first way backtracking finds is the only one that goes on (`seq_first`); no match that begins earlier reaches a word for seasons after a separator; ordering by C59, closeness by C60 |
| C128 | `Model/Chain`: the chains of bare numbers of episodes.py | as C125, with an invariant for where matches end (after a digit), so that only a number and a dash in front can hide a number |
| C129 | `Model/EpisodeWords`: the pattern of episodes.py:251-254 | the match at a position is determined; no earlier match crosses the separator in front; exact |
| C130 | `Model/EpisodeWords`: episodes.py:263-266 | as C129 |
| C131 | `Model/EpisodeWords`: episodes.py:335-337 | as C129 |
| C132 | `Model/EpisodeWords`: episodes.py:342-347 with `match_processors.strip` | soundness, completeness under a condition on what is in front, a counterexample |
| C133 | `Model/EpisodeWords`: episodes.py:215-221, :349-354 | occurrences of words without a border do not overlap; exact |
| C134 | constants of rules/common/__init__.py, `Model/Chain` | by computation, induction on the digits |
| C135 | Model/Phrases parses the regular expressions of options.json (Model/PhraseTables, generated) into a syntax tree and runs it; Spec/PhraseTables lists every way to write each value | the matcher is shown to try the spellings in order (induction on the tree); a check computed in the kernel shows that table and vocabulary say the same and that longer spellings come first; overlaps are excluded by a second check |
| C136 | Model/Phrases parses the regular expressions of options.json (Model/PhraseTables, generated) into a syntax tree and runs it; Spec/PhraseTables lists every way to write each value | the matcher is shown to try the spellings in order (induction on the tree); a check computed in the kernel shows that table and vocabulary say the same and that longer spellings come first; overlaps are excluded by a second check |
| C137 | Model/Phrases parses the regular expressions of options.json (Model/PhraseTables, generated) into a syntax tree and runs it; Spec/PhraseTables lists every way to write each value | the matcher is shown to try the spellings in order (induction on the tree); a check computed in the kernel shows that table and vocabulary say the same and that longer spellings come first; overlaps are excluded by a second check |
| C138 | Model/Phrases parses the regular expressions of options.json (Model/PhraseTables, generated) into a syntax tree and runs it; Spec/PhraseTables lists every way to write each value | the matcher is shown to try the spellings in order (induction on the tree); a check computed in the kernel shows that table and vocabulary say the same and that longer spellings come first; overlaps are excluded by a second check |
| C139 | Model/Phrases parses the regular expressions of options.json (Model/PhraseTables, generated) into a syntax tree and runs it; Spec/PhraseTables lists every way to write each value | the matcher is shown to try the spellings in order (induction on the tree); a check computed in the kernel shows that table and vocabulary say the same and that longer spellings come first; overlaps are excluded by a second check |
| C140 | Model/Forms parses the expressions of source.py (named groups, lookaheads) into a syntax tree and runs it; Spec/FormTables lists every way to write each, with its parts | the matcher is shown to try the ways in order with the right groups (induction on the tree); kernel-computed checks that expressions and list agree and that longer ways come first |
| C141 | Model/SeasonWords: the chain of episodes.py:232-246 with the validators on each number (a refused match does not join the chain but the search goes on after it) and on the chain; Spec/SeasonWords: numerals, words and lists as stretches of text | inversion of the expressions, first-alternative reasoning for numerals (Props/Numerals), induction on the list for completeness |
| C142 | Model/SeasonWords.numeralPattern: the pattern of episodes.py:256-261 | the first word of the list after which a numeral is found (a choice distributes over what follows it); no earlier match reaches a word after a separator |
| C143, C144, C145 | Model/MoreChains: the chains 012, ep 112 and cap 112 of episodes.py:275-281, :307-319 | a chain extends over its whole matches; no match that starts before `ep` or `cap` reaches into it; of two matches of `cap` the chain is given exactly |
| C146, C147, C148 | Model/Engine: all the rules behind their classes, run in the order of Model/Schedule | what each class may leave (`rule_follows`, one lemma per rule), then invariants over the run, split at one rule with the schedule theorems C108 |
| C149 | `Model/Engine.lean`: all the rules in scheduled order | rules of one priority without dependency run in registration order (`earlier_runs`), hence the list of what may follow `SeasonYear`/`YearSeason`; the matches of a name are kept by those |
| C150 | same | nothing else makes a mimetype (`births`); after `Mimetype` only two rules run |
| C151 | same | `PrivateRemover` is first in its stage; invariant `Public` of the rules after it |
| C152 | the engine of C143 with the positions: every rule is shown to leave stretches of the input (an empty private range separator is the only exception, and the private matches are removed), through holes, groups, titles, echoes | `C152_place` by an invariant through `rulesRun`; EnlargeGroupMatches is followed for any found matches (`EnlargeEarly.early_enlarge`) at the place where it runs, Mimetype and TypeProcessor by C108's order |
| C153–C157 | `guessitSys` (Model/Whole): `Api.guessit` with `program` in the place of `rebulk.matches`; `program` = every declaration (Model/Declared), families and identities (Model/Families), every rule in the order they run (Model/Engine), then `toDict` | what each declaration may give is proved declaration by declaration (Props/ProgramNames*), the environment of the rules is shown natural (Props/ProgramGrown), and the theorems about the rules (C18, C146, C147, C149, C150) apply; three calls evaluated in the kernel (Props/GuessRuns) |
| C158 | values of properties with a list of words | `KeptV` follows values through the rules; `Worded` for each declaration; `toDict_leaf` for the dictionary |
| C159 | free texts are taken from the name | `Quotes` for formatters through the rules and for each declaration; `expectedFrom_slice`; `toDict_leaf` for the dictionary |
| C160 | dates, countries and languages come from the name and are allowed | `Made` for each declaration (C28_sound, C49, C22, C56) and through the rules; `toDict_leaf` for the dictionary |
| C161 | sizes and bit rates are written in the name | `Made` for the declarations of size.py and bit_rate.py (C119) and through the rules (C160_engine); `toDict_leaf` for the dictionary; C30 lifted to the dictionary (C30_guess) |
| C162 | Model/Declared, Model/Processors, Model/Program | `Spec/Counted.NumberWritten` says how each number is written; `ProgramFree` shows no other declaration gives the six names, `ProgramNumbers` that theirs give such numbers (C115–C118), `EngineNumbers` follows the raw text and formatter through every rule, `NumbersWhole` the dictionary |
| C163 | Model/Chain, Model/MoreChains, Model/EpisodeWords, Model/Program | `Spec/Versions.VersionWritten`; `Proofs/Marks`: what a group captures in an expression and in a chain; `ProgramVersions` applies it to each declaration of episodes.py and follows the digits with the engine theorem of C162; `ProgramClear` shows that no other declaration gives a version; `VersionsWhole` the dictionary |
| C164 | Model/SeasonWords, Model/EpisodeWords, Model/Validators, Model/Program | `Spec/Versions.CountWritten`; `ProgramCounts`: what group 9 captures in each declaration and the value of its text, by Proofs/Marks; renamings by the trace of the rules (`EngineTrace.births` with raw texts); `CountsWhole` the dictionary |
| C165 | Model/Episodes, Model/SeasonWords, Model/Date, Model/Processors, Model/Program | `Spec/SeasonNumbers`; `ProgramSeasons`: what each declaration's season group captures and the number its text is worth; `EngineRanges.separatorRange_fills`: the filled numbers lie between; `EngineTrace`: every season or year at the end has such an ancestor; `SeasonsWhole` the dictionary |
| C166 | Model/Program, Model/Api | `Spec/SeasonNumbers.NumberSomewhere`; `Numberless`: by C162–C165 for the program and `guess_answers` |
| Later | remaining helpers | as above |

Nothing in the list is judged inexpressible.

## 4. What is modelled and what is not

Modelled (all definitions cite lines): `options.py`, `api.py`, `__main__.py` (driver), `reutils.py`, `rules/markers/*`,
`rules/processors.py`, `rules/common/{__init__,comparators,date,expected,formatters,numeral,pattern,quantity,validators,words}.py`,
the rules (subclasses of `Rule`) and functional patterns of `rules/properties/*.py` named in the comments of `Model/`.
`tools/coverage.py` lists the functions of the repository no definition cites.

The whole program: `Model/Program.lean` puts together the markers (`Model/Marks.lean`), every declaration of the default configuration, and the rules in
scheduled order.  It is executable: `tools/fidelity/run.py` runs it (compiled by nobody, interpreted by Lean, with small tables in place of babelfish, dateutil and Unicode) on the 2123
cases of `guessit/test/*.yml` without unusual options; **2110 give what the case expects**, the others are cases whose keys are repeated in the file, which need a language
missing from the small table, a `re:` option, the test's own configuration (400p) or `null`.  This is a test of the translation, not a proof; twelve mistakes of the model were
found with it and corrected.

Not modelled: configurations of the patterns other than the default one (the reading of patterns from a configuration is C98–C100); in the theorems about rules
the `pattern`→`match` step enters as "any list of matches", unless they are about `program`.  The patterns of C113 and after are modelled exactly, as terms of `Re` (Python's
leftmost, first-alternative backtracking semantics) and with this contract of rebulk (`RePattern._match`, `Pattern.matches`): one
match per result of `finditer`, one child per non-empty group, the parent is reported unless `children` is given, what is reported
is validated (everything with `validate_all`), and one invalid child rejects the whole hit.  The contract of chains (`Model/Chain.lean`): the first pattern is searched, the parts that follow are matched right
after one another within their repeaters, a match the chain breaker objects to is left out while the search goes on after it, and a chain whose validator fails gives up its last match
until it is valid or empty.  rebulk's scheduling of rules is modelled on its own (C108) and composed with the rules by Model/Engine (C18, C146 and after; the
other theorems about rules hold for any state; C27 quantifies over every schedule);
`yamlutils.py`, PyYAML's layout; performance; recursion limits except where stated.

Simplifications: formatters do not raise in the model of matches; opaque values (dates, languages, quantities) are compared by
class; `dict.update` with a list of pairs is a `TypeError`; in C01–C17 the `advanced` option of `guessit` is off (C112 adds it); CPython's limit on
the digits of integers is not modelled; in the heap model recursion is bounded by fuel and raises `RecursionError` beyond it.
In rule theorems the state is `Sound` (matches are non-empty stretches of the input, no two are equal), which rebulk guarantees.

## 5. Findings: properties that are false of the code

Each is a theorem about a concrete run of the model.

* C06: merging a document with `pristine` twice is not idempotent.
* C09: the rules cache compares configurations with `==`, so key order and `1`/`True` differences are ignored.
* C10: a failing builder leaves the new configuration recorded; the next call with it uses the old rules.
* C12: a bad option string ends the process (`SystemExit`).  C13: `configure()` returns the cached configuration object itself.
* C62: a list shared inside a document (YAML anchor) is extended through both references.
* C14: `input_string`, and with `advanced` the raw texts, stay text for bytes input.  C44: `output_input_string` always overrides the configuration.
* C18: excluded properties that still appear (year, `another`, ...).
* C19: `cleanup(" a b c")` starts with a space.  C37: `StripSeparators` raises on a one-separator match.
* C24: `"(a]"` is a group (the stacks are one shared list).
* C29: `1GB == 1.0GB` but different hashes.  C30: text without units does not round-trip.
* C41, C54: an explicit count of 0, a match at position 0.  C42: empty expected text never terminates; length-changing `lower`.
* C46: an empty list of alternatives gives an invalid pattern.  C47: the span of a country with leading space is shifted.
* C51: a guessed `day_first` leaks into later attempts.  C53: the leftmost, not the rightmost, part is kept.
* C55: a regex entry sees text modified by plain entries.  C59: E01-E02-E01.  C60: e01-e1500 is expanded.
* C63: only the first run of isolated words is dropped.  C65: off-by-one on the right neighbour.  C66: a profile drops its own codec.
  C67: two-letter prefixes never accepted.
* C79: `[Foo]/[Bar]`: the list of groups is modified while it is iterated.
* C85: `films/720p-James Bond-f21` has no film title (rebulk's `holes` returns an empty hole first), `720p-James Bond-f21` has one.
* C86: a forbidden word at the end cuts the wrong length (`Group.rip` → `Gro`); `abc-)` keeps its dash.  C87: a match at the end of the
  name is dropped and no release group is reported; in a directory's element beginning with a separator the result depends on the
  parity of unrelated matches.
* C90: what is decided for a directory leaks to the next elements: both readings of a number of the name can be lost.  C91: a lone
  weak number at the start becomes an absolute episode.  C93: `1920x000` raises `ZeroDivisionError`.  C95: excluding audio bit rates
  drops those of the video.  C96: two overlapping languages after a prefix raise `ValueError`.
* C98: the older `pattern` key replaces the list of patterns of an entry and is passed on as an option.  C100: loading takes
  `callable` out of the configuration object, so that loading it again fails.  C102: two API objects with different synonyms
  influence each other, as babelfish's registry is that of the process.
* C106: conflict solving cascades: A is dropped for B, B for C, and A overlaps nothing that is left.
* C105: `--yaml` rewrites the first two lines of PyYAML's text; for a name of 128 characters or more they are not of the form expected
  and the printed document has lost the last character of the name.

* C109: excluding `film`, `language` and `subtitle_language` swaps the order of guessing title and release group.  C110: of the two
  instances of `RemoveLessSpecificSeasonEpisode` only the first one is ever run (rebulk compares rules by class).  C111: excluding
  `alternative_title` disables titles.

* C115: `week12` without a separator is never a week; the word may be the end of another one.  C117: `abcd5.avi` is disc 5;
  `cd2of100` reports nothing at all, as the count out of bounds rejects the whole hit.
* C118: `part fourteen` (sixteen, seventeen, ..., une, deux, cinq, dix, douze, vingt) is not recognised: a shorter alternative is
  taken and there is nothing after it to backtrack for.  `part ſix` (long s) makes the call fail: the pattern takes the letter for an `s`,
  `str.lower` does not, and the formatter raises `ValueError`.
* "Movie.1.5GB" is recognised as two sizes, 5GB and 1.5GB: the dot that separates the decimals also counts as a boundary. Only the conflict solver of rebulk drops the shorter one (`Props/AmountsExamples`).
* C120: string patterns search the lower-case form of the name but count positions in the name itself. `İİİİ avi foo bar` reports the container `foo`:
  each `İ` (two characters in lower case) shifts the position by one (`C120_counterexample`).
* `1080p24.0000` has no screen size: the frame rate takes `24.000`, the end is not at a separator, and no shorter reading is tried (FramesExamples).

* C124: the trailing newline of the file of extensions makes the empty text an extension, so `www.foo. bar` has the website `www.foo.`; and the second website of `a.com b.com` is missed.

* C126: in `5 x 1x02` the season and episode 1x02 are not read (`5 x 1` and `x02` are).

* C128: in `2012-12` the pattern of two digits reads `20`, then `12-12`, and reports nothing.

* `4 of 10 episodes` is not recognised by the pattern for detached counts: the alternatives are tried in the order of the configuration, `episode` comes before `episodes`, and the match then ends in the middle of a word (C132_counterexample_plural).

* C135–C139: an occurrence hidden behind an overlapping one that fails its validator is lost: `x4k.remaster` has no edition, `xproof.sample.fix` no Fix.

* C140: of the second `DVD` of `DVDVD` nothing is found: the expression consumed it from inside the first.

* C141: `saison deux`, `saison cinq`, `season fourteen` report nothing and `saison dix` reports season 509: the Roman numeral is tried before the number words, and `four` before `fourteen`.

* C142: with `type: episode`, `Episodio 4` reports nothing: `ep` and the Roman numeral `i` are matched first, refused, and the search goes on after them; so does `eps capitulo 4`.


* With `type` excluded, `RenameEpisodeTitleWhenMovieType` finds no type `episode` and renames every episode title to `alternative_title` (C148).
* `absolute_episode`, `episode_title` and `proper_count` are reported but missing from docs/properties.md; `film_series` is documented and never produced; `another` is reported when `other` is excluded (C146).

* The private separator that `AbstractSeparatorRange` adds spans `[previous.end, next.start - 1)` (episodes.py:559), one character short: for `1-2` it is empty. Such a private match is allowed by `Stretched`; the claims that still ask for `Sound` (strictly non-empty matches) in a state after the range rules are silent about the states where one is present.


* `guessit('a - b', {'expected_title': ['-']})` (and `expected_group`) raises GuessitException: the match is one separator and `StripSeparators` indexes the empty text (C37_expected_counterexample).
* `guessit('İİİ.4k.')` raises GuessitException: string patterns are searched in `string.lower()`, which is longer than the string for `İ`, so `4k` is placed after the end of the name (C37_lowered_counterexample, C152_lowered_counterexample).

* C158: docs/properties.md leaves out 40 values that guessit gives: video_codec `VC-1`; audio_codec `DTS-HD`, `DTS:X`; other `Fix`, `Low Definition`, `Original Animated Video`, `Original Animation DVD`, `Original Net Animation`; 32 streaming services (`9Now`, `Disney+`, `SBS`, ...). It has `SBS (AU)`, which no pattern gives. EquivalentHoles may report a value in the case of the name.


* `guessit('A.2001.700MB.mkv')` takes the year into the size: `2001.700MB`, and there is no year (size.py:27 accepts one dot in the number, and the longer match wins).

Seen while reading, not stated as theorems: the second check of
`AnimeReleaseGroup.when` is unreachable; `EnlargeGroupMatches` can raise `ValueError`; builders pop entries of the configuration
dictionary; list options given as text are iterated by characters; `properties()` raises `KeyError` when `count` is missing.
