# Formal model of spine-json-lib in Lean 4 — design

Source: `/repo/spine_json_lib` (python, pinned commit). Nothing of it is executed
here; every definition of the model cites the file and lines it transcribes.

## 1. Shape of the development (all under `/verif/lean/Verif/`)

| directory | content |
|---|---|
| `Model/` | executable model, function by function, citing `/repo` |
| `Spec/`  | small declarative specifications the properties are stated with |
| `Lemmas/` | helper lemmas |
| `Props/` | one theorem (or a few) per property, with a non-vacuity `example` beside it; counterexamples for false properties |

Modelling conventions

* Python exceptions are values: `Except Err α`. Operations that mutate an object and
  may raise return `Except Err α × State`, so that the state *after an exception* is visible.
* Python `dict` = association list in insertion order (`Dict`), keys unique by invariant
  (`set` replaces in place or appends, `del` removes).
* Python `set`/`frozenset` = list, only membership is ever claimed (iteration order is unspecified in Python).
* Python `str` = `List Char` (`Str`), i.e. a sequence of Unicode scalar values.
* `int` = `Int`; `float` = an arbitrary type `F` with the class `PyRt F` recording the few
  runtime facts used (multiplication, comparison, parsing, Unicode character tables). Theorems hold for **every** instance,
  so they do not depend on rounding, NaN or infinities. A concrete instance exists for the examples.
* `while`/recursive searches become fuel-bounded functions that return the error `diverge`
  when the fuel runs out; a theorem shows that the fuel used by the model is never exhausted on
  inputs on which the Python code terminates (and, for `get_bone_custom_scale_recursive`, exactly when Python loops for ever).
* Mutation of shared objects: children/parents dicts of graph nodes map ids to node objects. `Model/Graph.lean`
  stores ids and looks the node up in the graph. `Model/Heap.lean` models the objects themselves (addresses, identity,
  dicts of references), and C64 proves that the id-based model computes the same for every history of calls.
* Elsewhere the model computes with values. `Model/Alias.lean` models the objects: addresses, identity, `deepcopy` with its
  memo, in-place changes. C79 proves on it that editors share nothing with anything else, and C80 that it does what the value
  model says for every program, except for documents in which two slots of one skin hold the same dictionary.

Classes of histories (all inductive, all lengths)

* `Reached`: any document that loads, then any calls with any outcome.
* `Called`: the same for documents without duplicate keys, except after a cleaning that stopped half-way on a drawOrder
  offset naming an unknown slot (graph and data are out of step afterwards).
* `Ran`: successful calls (and failed ones that change nothing) on documents whose names do not contain the suffixes
  `_SLOT`, `_ATTACHMENT`, `_IMAGE` of graph ids. The code strips these suffixes wherever they occur (C15), and the
  theorems that need this hypothesis come with a counterexample without it.
* `RanTidy`, `RanOpen`: as `Ran`, for C48 and for C23/C60.
* `Used` (C59): loading a JSON value, then any calls with any outcome.

## 2. Plan per property

| id | modelled | proof |
|---|---|---|
| C01–C05, C12 | `DAGraph`, `SpamNode`: `add_node`, `add_edge`, `remove_edge`, `remove_node_by_id` as a state machine with errors | invariant by induction over arbitrary call histories; frame lemmas per call |
| C02 | `generate_unique_id` loop | injectivity of decimal printing + pigeonhole |
| C06, C07 | `__get_nodes` DFS with visited set | generalised DFS invariant |
| C08, C09 | `get_circular_dependencies`, stale `path` included | DFS invariant (stack / finished sets); C09 is expected false: counterexample |
| C10 | `_look_for_paths` with its mutable `visited`/`path` | induction on remaining depth |
| C11 | `sequential_order_of_execution` | expected false (nested parent visit emits a child before its other parent; heads revisited): counterexample, positive theorem on forests, coverage on all DAGs |
| C13 | `validate` | corollary of C06, C08 |
| C14, C15 | `_to_graph_id`, `_to_base_id` (`str.replace` of *every* occurrence) | suffix injectivity; C15 false in general: partial + counterexample |
| C16, C17 | `SpineGraphParser` on JSON values | invariant of the building loop; insertion order + stable sort by idx |
| C18, C19 | `remove_leafs_of_type`, `remove_heads_of_type` loops | fixpoint argument against an inductive specification |
| C20, C21 | `SpineData.__init__/set_default_values/to_json` over class descriptors of all leaf classes | generic over descriptors, then for the table of all classes |
| C22, C23 | whole-document load and `to_json_data` | lifted from C21; C23 false when no slot is left: counterexample + partial |
| C24–C26 | constructors | direct; C26 second half false: no document with point/clipping/boundingbox loads |
| C27–C31 | `SpineVersion` | direct; C28, C30, C31 false as stated (component-wise comparison): counterexamples + exact characterisation |
| C32 | `get_tags_from_name` (regex matcher) | matcher against a declarative grammar |
| C33 | `get_bone_custom_scale_recursive` | relational big-step semantics of the loop; pigeonhole for divergence |
| C34–C36 | `erase_animations` | direct; C35 false (not atomic): counterexample + partial |
| C37–C43, C54, C55 | `clean_animation` and everything it calls | refinement of the whole operation to filters over the document + graph/data synchronisation invariant over histories; C41, C42, C43, C54 false in general: counterexamples + partial |
| C44–C46 | `DrawOrderTimeline` | declarative notion "L realises the offsets", uniqueness, insertion lemma; C44 false in general (dropped zero offsets): counterexample + exact characterisation |
| C47, C48, C51, C56 | `images_references` | history invariant; C48 false: counterexample + partial |
| C49, C50 | `remove_skin`, `erase_skins` | direct; C50 partial (link through same key only) |
| C52, C53 | `scale_animation` | direct; C52 false for a root with noScale (scaled twice), C53 false (clean restores unscaled bones): counterexamples + partial |
| C57 | `int("0x"+color,16) & 0xFF` | arithmetic on digit lists |
| C58 | path logic of `to_json`/`save_images_json` over an abstract file system whose files hold text | direct, with C77 for the contents; false for bare file names |
| C59, C60 | `erase_skins`: when it raises, what it reports | C59 exact for every history; C60 exact over `RanOpen`, false for images named by the key |
| C61 | the defaults of all classes against a table of the format (`Spec/Runtime.lean`, written from the format, not from `/repo`) | per attribute; false for three classes; the converse, what is still written, from a second column of the table |
| C62 | what is drawn at every time (`Spec/Drawn.lean`) before and after cleaning | composition of C38–C45; partial |
| C63 | every call, any outcome: what does not change (`Spec/Frame.lean`) | relation preserved by each call |
| C64 | node objects with identity (`Model/Heap.lean`) | heap invariant, simulation of `Model/Graph.lean` |
| C65 | references of the written document (`Spec/Refs.lean`) | invariant over `Called`; false for path constraints |
| C66 | places inside a value (`Spec/Paths.lean`) | generic traversal (`Model/Traverse.lean`) at every place; agreement with the class-by-class model |
| C67 | the searches with a bound on nested calls (`Model/Recursion.lean`) | bounded search = unbounded or RecursionError; enough above the longest chain; false: for every limit a document that hits it |
| C68 | graphs whose entries may be `None` (`Model/NoneNode.lean`) | exact outcome of `add_node`; one `None` entry breaks every query after every history; agreement with `Model/Graph.lean` otherwise; false for the types DEFAULT and PATH |
| C69–C71 | removals by name with return values, counts, `AnimationEraserResult` (`Model/Bulk.lean`) | exact effect and exact failure point of a list of names; handshake; record |
| C72–C75 | checks of parser classes and factories, equality, hash, `get`, `__new__` (`Model/Interfaces.lean`) | exact outcome per argument; all four false of the code in one case each |
| C76 | `cast_element` on every JSON value (`Model/Cast.lean`) | exact outcome per type, idempotence; `str` of lists and dictionaries by `repr` (`Model/Repr.lean`), injective on values; false for booleans |
| C77, C78 | `json.dump`, `json.load` (`Model/JsonText.lean`) against the JSON grammar as inference rules (`Spec/JsonText.lean`) | scanner sound and complete for the grammar; encoder derives a text of the value; documents of editors have no repeated keys after any history (`Lemmas/Fine*.lean`); C78 false for numbers that are not finite |
| C79 | the whole library over a heap of python objects with identity, `copy.deepcopy` with its memo (`Model/Alias.lean`) | reachability (`Spec/Alias.lean`); every operation reads, writes and returns only objects of a closed region plus new ones (`Lemmas/AliasSafe*.lean`); invariant over programs |
| C80 | the heap model of C79 against the value model of the other properties | simulation, function by function (`Lemmas/Sim*.lean`): a relation between heap and values, kept by the constructor and by every call; traces of programs (`Spec/AliasValue.lean`) |
| C81 | the calls with the orders of sets as arguments (`Model/SetOrder.lean`) against each other | removal in two orders gives equal graphs and equal drawOrder offsets, under the invariant of `Called`; induction on the calls |
| C82 | two runs of `erase_animations` on one editor | what an animation shows or uses is monotone in the animations; then the characterisations of C39, C40 and C55 |
| C83 | runs of one call against runs of two | the safe call as a filter on the animations; filters compose; the loop over skins splits, and the graph and the cleaning depend on the document only |
| C84 | runs in the two orders | frame lemmas: the graph does not depend on animations, its shape not on the data of bones; scaling reads and writes bones only |
| C85 | tables of attributes per kind of object, written independently of the classes (`Spec/Saved.lean`); places as paths of keys and positions | one lemma per class: loading and then writing is the table; then lookup along the places |
| C86 | readers as functions from attributes to defaults; the defaults of the Spine 3.8 runtimes as a table | from C85, attribute by attribute. The table of the runtimes is knowledge about Spine, it is not taken from the repository |
| C87 | `Reord`: JSON values equal up to the order of keys, an inductive relation independent of the model (`Spec/KeyOrder.lean`) | a relation between editors (parts equal up to the order of keys, graphs with the same nodes and edges), shown for loading and for every call by following the function; the cleaned graphs agree because what is removed is characterised by the edges and not by the order of traversal |
| C88 | `runAll`: the calls on one editor; `inSessions`: each group of calls on a new editor opened on the saved document (`Spec/Sessions.lean`) | from equality of the saved documents a relation between the data is derived (equal up to attributes that neither editor writes); every call is followed on both; what `clean_animation` removes is characterised by the data (C12, C13), the bones it reads back are those the graph was built from (C37) |
| C89 | `session`: `from_json_file`, the calls, `to_json` to the same name; `onFile`: one session after the other on one disk; `Writable`: names as in C58 (`Spec/FileSessions.lean`) | induction over the sessions from C88, C77 (text and document) and C58 (the place on the disk does not move when its file is written) |
| C90 | `Mach.run`: editors as objects on the heap and a disk; `VMach.run`: editors as values and a disk; `Cmd`: open, call, save (`Spec/AliasFiles.lean`, `Model/AliasFiles.lean`); `saveImages`: `save_images_json` on the heap, after such a program (`Model/AliasImages.lean`, `Props/AliasImages.lean`) | one step of both machines from C80; a document just built from a text shares nothing and reads back, by induction over the value; the constants of the classes are built when the library is imported (`Lemmas/AliasStart.lean`) |
| C91 | `AnimData.DrawsSaved`: what an animation draws, in its saved form; `Call.Spares` (`Spec/DrawnSaved.lean`) | drawing respects the relation between states that save the same document (C88, `Lemmas/StateDrawn.lean`); one call from C62, sequences by induction with `Sub` (attachments and timelines only go); sessions on files from C89 |
| C92 | the lines printed by each call (`Model/Console.lean`), `log` of a history, `lost`, `Has` (`Spec/Console.lean`) | forgetting the lines gives the editor model; images by permutation over any history; attachments: no attachment node is ever a head between calls (`Rooted`), so the detached ones are those all of whose slots go; `repr` of lists is injective (`Lemmas/Repr.lean`) |
| C93 | the raising functions again, with messages (`Model/Messages.lean`: `Msg`, its `text`) | forgetting the messages gives the functions of the model; exact conditions for each message; texts by cancellation, lists by `repr` |
| C94 | `scale_animation`, judged by the world transforms of the runtime (`Spec/World.lean`, a specification; over the reals in `Spec/WorldReal.lean`) | homogeneity of the five modes of inheritance; induction on the way to the root; false for a root that does not take over scale, for further bones without parent, for negative factors, and for two factors with turned bones |
| C95 | `erase_skins`, judged by how the runtime resolves linked meshes (`Spec/Meshes.lean`, a specification) | induction on the chain of links over the exact effect of `remove_skin`; false for colours, other parent names, links to "default", chains of links and deforms of the erased skin |
| C96 | `clean_animation`, judged in the same way | from the exact description of what cleaning removes (C40); false for chains of links and for shared names |
| C97 | `json.load`, `json.dump`, `from_json_file`, `to_json` with the limit of digits of `int` (`Model/Digits.lean`) | the grammar of C77 with one more condition; a writer that stops at a chunk; no beginning of an object is a JSON text; every step either agrees with C77 or is ValueError |
| C98 | `open` in text mode: encodings and line ends (`Model/Bytes.lean`) | a relation that changes only line ends preserves the grammar of C77, both ways; the text of `json.dump` is ASCII (C77); UTF-8 decoding inverts encoding |
| C99 | strings of code points, `scanstring` and `encode_basestring_ascii` on them (`Model/Surrogates.lean`); `join`, `Apart` (`Spec/Surrogates.lean`) | one step of the scanner per code point, looking at the text after a high surrogate; what is read never has a pair |

## 3. What is modelled and what is not

Modelled: every function of `spine_json_lib` outside `test/` except those listed here. Files are an abstract file
system (`Model/Files.lean`): directories, files with text, `makedirs`, `open`. JSON text is modelled character by character
(`Model/JsonText.lean`, after the standard library of Python 3.12); floats are abstract, with the laws of class `JsonRt`: there is one
NaN, one infinity of each sign, and the repr of the others is a decimal number that `float` reads back.

Not modelled: the messages of exceptions that Python raises itself, and the constant ones of type checks; the
recursion limit except for the graph searches (C67), non-string names (such documents are rejected by the model with the
explicit error `unmodelled`), bytes of files outside C98 (text only), lone surrogates in strings outside C99, the limit of digits in `int` outside the files of C97.

The unit tests of the repository are run on the model: the small ones as `example`s in `Props/RepoTests.lean`, those on the
large documents of `spine_json_lib/test/data` by `tools/fixtures/check.py`, which evaluates `Editor.load`, `eraseSkins`,
`eraseAnims` and the graph parser on the documents and compares with the values the tests expect. All agree. All three
documents meet the hypotheses of the history theorems (`Ran`). This tests the model; it is not part of any proof.

## 4. Trusted base

Lean 4.33.0 kernel; the axioms `propext`, `Classical.choice`, `Quot.sound` at most (listed per theorem in `AXIOMS.md`, written by
`tools/axioms.py`); the reading of the Python source recorded in the citations; the facts in the classes `PyRt` and `JsonRt`.
No axioms are added, no `sorry`, no `native_decide`, no `bv_decide`. For C94: the account of the runtime's world transforms in
`Spec/World.lean`, which is knowledge about Spine. Mathlib is imported in `Spec/WorldReal.lean` only (the real numbers as an
instance of that specification).
`tools/check_table.py` compares the table of classes in `Model/Leaf.lean` with the text of `/repo` (parsed, not executed), and the list of members of `SpineData` in `Model/Interfaces.lean` too.

## 5. Seeded bugs

`seeded/bugs.py` lists the edits. `tools/seed.py` applies one to a copy of the sources outside `/verif`, rebuilds, and
records which theorems fail; a theorem that fails is replaced by `sorry` in the copy, so that later ones are still
checked. `tools/seedlog.py` writes `seeded/LOG.jsonl`. Edits that survived led to stronger or new theorems, recorded under
`tightened` (`seeded/tightened.json`). 183 random edits of single tokens of the model that still compile were tried as well; 20 survived. Those that
change what the model does are 14b01-14b09 of the log (series 14 when they survived, series 15 after the theorems were added), the
others were typos in `baseMembers`, which `tools/check_table.py` compares with the text, and edits of branches that cannot be reached.
Nine edits of the list have no line in the log, because their builds were stopped before they ended: 11a04-11a09 and 16a01-16a03. Nothing is
known about them.

## 6. Disagreements between properties and code

Properties are stated as a user of the library would expect them. Where the code disagrees, the claim is `partial`: a
counterexample on a concrete document is proved, and beside it the strongest true statement found. The main ones:

* Versions are compared component by component, so "4.0" >= "3.8" is false (C28, C30, C31).
* `sequential_order_of_execution` can list a child before its parent (C11); nodes reported as circular need not lie on a cycle (C09).
* `_to_base_id` removes every occurrence of the suffix, so names containing it are confused with others (C15, C38–C40, C42, C47, C65).
* Output without slots, or with a path copied over a linked mesh, cannot be loaded again (C23). Point, clipping and
  bounding box attachments can never be loaded (C26).
* `erase_animations` in strict mode deletes the known names before it raises (C35); `erase_skins` is not atomic (C59).
* Cleaning drops offsets that become 0 although they pin a slot (C44, C62), removes meshes that share a name with an unused
  attachment (C41), keeps keyframes that name removed attachments (C43), is not idempotent (C54), undoes an earlier
  `scale_animation` (C53), and removes slots that path constraints need (C65).
* Linked meshes are looked up by their own key instead of their parent (C50). Images named by the key of an attachment are
  never reported (C60).
* A root bone that does not inherit scale is scaled twice (C52). A bare file name cannot be written (C58).
* Some attributes are dropped at a value that is not what readers assume (C61).
* A skeleton whose bones form a chain longer than the recursion limit (1000 by default) loads, but cannot be cleaned: RecursionError (C67).
* `add_node` of type DEFAULT (the default of the argument) or PATH on the skeleton graph stores `None`; every query afterwards ends in an AttributeError and the entry cannot be removed (C68).
* What `SpineGraphParser.to_json_data` writes cannot be read by `create_from_json_data` if there is a slot: KeyError, no skins (C72).
* `DAGraph.create_from_json_file/data` accept `IGraphParser` itself (C73). Nodes and versions cannot be hashed, nor compared with `None` (C74).
* `SpineData.get` also finds methods and class constants (C75). `cast_element("yes", "boolean")` gives the string back (C76).
* Numbers that are not finite are written as `Infinity` and `NaN`, which is not JSON; they arise from `1e999` and from scaling (C78).
* When two slots of one skin of a document hold the same dictionary (not possible for documents read from text), cleaning removes an unused attachment twice: KeyError (C80).
* After a cleaning that a bad drawOrder offset has stopped, whether a later cleaning succeeds can depend on the order in which Python iterates over a set (C81).
* Erasing animations one after the other with cleaning can keep attachments that erasing them in one call removes (C83), and the order of cleaning calls matters (C84). Erasing two skins one after the other may report fewer images than erasing them together (C83).
* Loading and saving without an edit changes what the Spine runtimes see: values that equal the default of the library but not that of the runtimes are dropped, e.g. `spacing` 1 of a path constraint, `scaleX` 1 of a transform constraint, `int` 0 of an event keyframe (C86). Keyframes of slot colours get `"name": null` (C85).
* The scale of an image in `images_references` depends on the order of the keys of a skin when slots of different scales show the image (C87): the last one counts.
* `scale_animation` followed by `clean_animation` gives another document than with saving and opening in between (C88): cleaning reads the bones back from the graph, which was built before the scaling.
* With an attachment name that contains `_ATTACHMENT`, `clean_animation` can print a name that does not exist: `v_ATTACHMENT_w` is reported as `v_w` (C92).
* The message about a wrong attachment type lists `region` and `slot` as supported, which are refused, and not `linkedmesh`, which is read (C26).
* `scale_animation` scales neither bones without a parent other than `root` nor, for negative factors, the picture of bones with `noScale`; with two factors, turned bones that do not take over scale are stretched along their own axes (C94).
* `remove_skin` gives a linked mesh the colour of the mesh it was linked to, looks for the mesh under the key of the linked mesh instead of `parent`, does not notice links without `skin` (which mean "default"), copies links as they are, and drops the deform timelines the linked mesh was bent by (C95).
* `clean_animation` keeps unused meshes of shown slots because linked meshes may need them, but removes linked meshes that others are linked to, and meshes whose name another unused attachment has (C96).
* `to_json` opens the file before it makes the text: when `json.dump` raises, for a whole number of more than 4300 digits, the previous file is lost (C97).
* The files are opened without an encoding, so a file in UTF-8 with characters beyond ASCII is opened with other names, and without an error, where the platform has another encoding; a file with a byte order mark is not opened at all (C98).
