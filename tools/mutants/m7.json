[
 {
  "file": "Model/Heap.lean",
  "definition": "plainH",
  "old": "    | some (.list vs) => HM.bind (HM.alloc (.list vs)) (setKeyH m k) h",
  "new": "    | some (.list _) => setKeyH m k (.ref b) h",
  "edit": "merged[option] = value without list(): the caller's list becomes the merged list",
  "claim": "C13: merge_options modifies none of its arguments"
 },
 {
  "file": "Model/Heap.lean",
  "definition": "mergeOptionsH",
  "old": "        HM.bind (deepcopyH (f + 1) [] o) fun r => match r.2 with\n          | .ref a => HM.items a\n          | .atom _ => HM.raise .typeError",
  "new": "        (match o with\n          | .ref a => HM.items a\n          | .atom _ => HM.raise .typeError)",
  "edit": "merged.update(options[0]) without deepcopy",
  "claim": "C13: merge_options modifies none of its arguments"
 },
 {
  "file": "Model/Heap.lean",
  "definition": "fixH",
  "old": "      | some (.list vs) => HM.bind (HM.mapM (fixH f) vs) fun ys => HM.alloc (.list ys)",
  "new": "      | some (.list vs) => HM.bind (HM.mapM (fixH f) vs) fun ys => HM.bind (HM.write a (.list ys)) fun _ => HM.pure (.ref a)",
  "edit": "_fix_encoding rewrites lists in place",
  "claim": "C13: options not modified"
 },
 {
  "file": "Model/Heap.lean",
  "definition": "fixH",
  "old": "      | some (.list vs) => HM.bind (HM.mapM (fixH f) vs) fun ys => HM.alloc (.list ys)",
  "new": "      | some (.list _) => HM.pure (.ref a)",
  "edit": "_fix_encoding returns lists as they are",
  "claim": "C13: cached state apart from the caller's objects"
 },
 {
  "file": "Model/Heap.lean",
  "definition": "configurePublicH",
  "old": "  match HM.bind (parseH o) (fixH S.fuel) h with\n  | (h1, .error e) => (st, h1, .error e)\n  | (h1, .ok options) => configureH S options force st h1",
  "new": "  match parseH o h with\n  | (h1, .error e) => (st, h1, .error e)\n  | (h1, .ok options) => configureH S options force st h1",
  "edit": "configure does not sanitize its options",
  "claim": "C13"
 },
 {
  "file": "Model/Heap.lean",
  "definition": "useH",
  "old": "    | (st2, h2, .ok config) => match mergeOptionsH S.eq S.fuel [config, options] h2 with",
  "new": "    | (st2, h2, .ok config) => match mergeOptionsH S.eq S.fuel [options, config] h2 with",
  "edit": "merge_options(options, config): the merged options share the cached configuration's dictionaries",
  "claim": "C13 (internal separation)"
 },
 {
  "file": "Model/Heap.lean",
  "definition": "reloadH",
  "old": "  match HM.bind (loadConfigH S options) (fixH S.fuel) h with",
  "new": "  match HM.bind (HM.bind (loadConfigH S options) (fixH S.fuel)) (fun c => HM.bind (HM.write 0 (.list [])) fun _ => HM.pure c) h with",
  "edit": "loading the configuration writes to a foreign object",
  "claim": "C13: options not modified"
 },
 {
  "file": "Model/Heap.lean",
  "definition": "deepcopyH",
  "old": "    | .ref a => match List.lookup a memo with\n      | some b => HM.pure (memo, .ref b)",
  "new": "    | .ref a => match List.lookup a memo with\n      | some _ => HM.pure (memo, .ref a)",
  "edit": "deepcopy returns the original on a memo hit",
  "claim": "C13: merge_options modifies none of its arguments"
 },
 {
  "file": "Model/Heap.lean",
  "definition": "rebuildH",
  "old": "        | (h4, .ok r) => ({ st with adv := some copy.2, rebulk := some r, built := some adv, config := some config }, h4, .ok config)",
  "new": "        | (h4, .ok r) => ({ st with adv := some copy.2, rebulk := some r, built := some adv }, h4, .ok config)",
  "edit": "self.config is not stored after a rebuild",
  "claim": "C13: what configure returns is the cached configuration"
 },
 {
  "file": "Model/Heap.lean",
  "definition": "useH",
  "old": "        | some r => match use r merged h3 with\n          | (h4, res) => (st2, h4, res)",
  "new": "        | some r => match use r merged h3 with\n          | (h4, .ok _) => (st2, h4, .ok config)\n          | (h4, res) => (st2, h4, res)",
  "edit": "the call returns the cached configuration instead of the result",
  "claim": "C13: nothing the caller receives is cached state"
 },
 {
  "file": "Model/Heap.lean",
  "definition": "startH",
  "old": "  | .atom (.bool true) => HM.bind (HM.alloc (.dict [])) fun c => match c with\n    | .ref b => HM.pure b\n    | .atom _ => HM.raise .typeError\n  | p => fun h => if truthyH h p then match iterH h p with",
  "new": "  | .atom (.bool true) => HM.bind (HM.write 0 (.dict [])) fun _ => HM.pure m\n  | p => fun h => if truthyH h p then match iterH h p with",
  "edit": "pristine clears a dictionary that is not the merged one",
  "claim": "C13: merge_options modifies none of its arguments"
 }
]