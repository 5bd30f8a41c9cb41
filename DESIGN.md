# A Lean 4 model of idin/abstract

`properties.jsonl` lists the properties, `lean/Verif/` holds the model and the proofs, `MANIFEST.json` maps
properties to theorems, `seeded/LOG.jsonl` records the mutation tests. `tools/sync.py` regenerates `lean/Verif.lean` and
`MANIFEST.json` (theorems are collected by their names, `C01_...`; status and notes come from `tools/claims.json`);
`tools/axioms.py` regenerates the list of axioms in section 4.

## 1. Shape of the model

The library is a web of mutable Python objects (Graph, Node, Edge, NodeStyle, EdgeStyle). The model keeps that web:

* `Py.lean` - Python run-time pieces: exceptions, insertion-ordered `dict` as an association list, values.
* `Model/Heap.lean` - the heap: three stores (graphs, nodes, edges) indexed by references (`Nat`), each object
  a structure with one field per attribute. A call is `M a = Heap -> Except PyErr a x Heap`: an exception keeps the
  mutations made before it, as in Python. Read-only calls are `Heap -> Except PyErr a`.
* `Model/World.lean` - the heap together with the contents of style objects and the display attributes of the graphs;
  calls on it are `W C a = World C -> Except PyErr a x World C`.
* `Model/*.lean` - the functions, branch by branch, each with a comment citing file and lines.
* `Spec/*.lean` - small specifications that do not mention the model's helpers (abstract multigraph, reachability,
  depth-first preorder, outlines, the DOT language and what a DOT text says, what a dictionary describes, what the
  painted styles are ...).
* `Lemmas/*.lean` - proofs. `Props/*.lean` - the property theorems, each with examples that meet its hypotheses. `Cases/*.lean` - each theorem with hypotheses is applied to a concrete graph, so that its hypotheses are seen to be met together.

Histories: `Op` (`Model/History.lean`) enumerates the API calls, `step` runs one, `Reachable h` says that `h` is the heap
after some history. `Hist h A` relates such a heap to the abstract multigraph state `A` (`Spec/MultiGraph.lean`,
`Spec/SpecHistory.lean`) driven by the same calls and results; `Rep h A` is the simulation relation. Everything about
reachable graphs is proved for every history, by induction over it.

Recursion: a recursive Python function gets the number of stack frames left as an argument and raises `RecursionError` when
it is used up. Theorems say how many frames suffice (the number of nodes), and that the result does not depend on the limit.

Properties that the code violates: the negation is proved (`_violated`, in general form where possible, with a
reachable witness otherwise) and the part that holds is proved as `_partial`.

## 2. Plan per property

| id | modelled by | proof |
|----|-------------|-------|
| C01-C08, C10 | heap ops + `Rep h A` simulation relation to the abstract multigraph | simulation per op, induction over histories |
| C09 | index counter in the graph object | invariant by induction |
| C11, C26, C27, C57 | queries on the heap, evaluated under `Rep` | list algebra |
| C12, C13, C16, C17, C55, C56 | same model; the code violates them | negation + partial positive theorem |
| C14, C15, C58-C60 | attribute fields of heap objects | invariant over histories |
| C18-C23 | depth-first traversals with fuel = recursion limit | visited-set invariant, closure argument |
| C24 | the distance dictionaries | soundness by induction, incompleteness by witness |
| C25 | greedy loop over nodes | loop invariant |
| C28 | string-producing recursion | rendered-tree refinement and counting |
| C29, C30, C54 | traversals over arbitrary object graphs (`Model/ObjTraverse.lean`, `Model/FromObject.lean`) | as C18/C19, induction on depth; C54 as C36 |
| C31-C35, C62 | deep copy with memo, filter (`Model/Copy.lean`, `Filter.lean`, `CopyWorld.lean`) | isomorphism invariant, simulation |
| C36-C38, C41 | folds of add_node/connect (`Model/Builders.lean`), drafts (`Spec/Draft.lean`) | refinement of the fold |
| C39, C40, C61 | parser on lists of characters, stack loop (`Model/Parse.lean`) | loop invariant, generator/parse round trip |
| C42 | comparison (`Model/Similar.lean`) | decision logic, witnesses |
| C43, C75-C77 | dictionaries with display settings, export, merging (`Model/Dictionary.lean`), `Spec/Dictionary.lean` | refinement of the fold over the dictionary, witnesses |
| C44, C45, C65, C66, C69 | string output (`Model/Graphviz.lean`); DOT grammar and its meaning (`Spec/Dot.lean`, `Spec/Picture.lean`) | the text is parsed back by the grammar to the picture of the graph |
| C46, C47 | `Model/Colour.lean` | counting, rational arithmetic |
| C48-C53, C63, C64, C67, C68, C70-C74 | styling on an abstract colour algebra (`Model/Style.lean`, `Stylize.lean`), `Spec/Paint.lean`, `Spec/Settings.lean` | invariants over the styling loops, well-founded recursion |
| C82, C83 | the setter of `raw_id` and the class `Edge` used directly (`Model/Rename.lean`) | run on a reachable heap; the code violates them in general |
| C84 | `render` with a path and `Graph.py`, with arbitrary libraries (`Model/Render.lean`), `Spec/Files.lean` | run of the calls; the text is read back as for C44 |
| C85 | as C44 | exact condition for success |
| C86 | the state dictionaries of the style classes (`Model/StyleState.lean`) | run of the calls; C81 for copied graphs |
| C87 | style objects as global styles (`Model/GlobalStyle.lean`) | run of the calls; silence of the passes keeps the list of edges |
| C88 | `invert_colours`, setters and constructors (`Model/Style.lean`) | cases on the given arguments |
| C89 | `removeEdges` (`Model/Mutate.lean`) | the run of `remove_self` calls is a history; representation relation |
| C90 | the methods for one end of an edge (`Model/Half.lean`, `Model/Mutate.lean`) | representation relation before the call; a state predicate for an edge listed at one end only |
| C91-C94 | the stylists with given styles and ratios (`Model/Painter.lean`), `Spec/Brush.lean` | as C48-C50, with the given style in place of the default; C91_defaults connects the two |
| C95 | `node_styles`, `edge_styles` (`Model/StyleMaps.lean`) | fold over the dictionary under the representation relation |
| C96 | sessions (`Model/Session.lean`); `Call.on` says which graphs a call is on (`Lemmas/Sessions.lean`) | what each call leaves aside, as an invariant over calls (`Aside`, `After`); the source as a function of one graph |
| C97 | sessions without re-added nodes and passed-on styles (`OwnedSession`, `TidySession`) | the hypotheses of C44, C49, C68 proved as invariants of sessions |
| C98 | `connect`, `add_node`, `append` | run of the three setters in order; prefix relation on the abstract graph through `append` |
| C99, C100 | the mutators and the reachability queries (`Props/Evolve.lean`) | arrows before and after the call under the representation relation; transitive closure with one pair added, with a vertex or an edge taken out |
| C101 | `connect`/`disconnect`, `add_node`/`remove_node` (`Props/Undo.lean`) | run of both calls; the dictionaries are determined by the abstract graph |
| C102 | the queries; `Spec/Shape.lean` says when two graphs have the same shape | paths carried over from name to name; for `roots` an injection both ways between the chosen nodes |
| C103 | `from_dict`, `from_lists` (`Props/AnyOrder.lean`) | from C36 and C37 by permuting what is drawn |
| C104 | all calls on graphs, in sequences (`Props/Monotone.lean`, all public calls `Props/MonotoneCalls.lean`; the kinds of calls in `Spec/Kinds.lean`) | each call extends or thins out the abstract multigraph; induction over the sequence |
| C105 | `add_node`, `connect` by name, in sequences (`Props/BuildOrder.lean`; `Spec/Adding.lean`) | names and ids of the abstract multigraph after a sequence, by induction |
| C106 | `remove_node`, `disconnect`, `remove_self` in sequences, failing ones included (`Props/CutOrder.lean`; what a call deletes: `Spec/Cutting.lean`) | each call filters the abstract multigraph, and filters commute; induction over the sequence |
| C107 | all mutating calls that name nodes by name and edges by id, failing ones and half-done ones included, interleaved with any other legal calls (`Props/Ledger.lean`; ledgers and what calls do to them: `Spec/Ledger.lean`) | the heap refines the ledger call by call (`Lemmas/Booked.lean`, `Lemmas/BookedRun.lean`); the abstract state is rebuilt from any ledger that fits what is seen; calls elsewhere leave the ledger alone by C10 |
| C108 | every query by name, with the order of its answer and its exceptions, on two heaps (`Props/Answers.lean`; what is read of an answer: `Spec/Answers.lean`) | the nodes of the same name and the edges of the same id are related; a simulation carries each query over, function by function (`Lemmas/Twin.lean`); with C107 also after any further calls, and for copies |
| C109 | the text given to Graphviz, `stylize`, `render`, `get_svg` and `get_html` on two graphs in two worlds (`Props/Dress.lean`; what it means to look alike, styles included: `Spec/Dress.lean`) | a simulation between the worlds that relates nodes of the same name, edges of the same id and the style objects they have (`Lemmas/Pose.lean`, `Lemmas/PosePaint.lean`), carried through every stylist function by function; sessions that share no style objects meet its hypotheses |
| C110 | comparison and sorting of nodes, `get_child_rank`, after all public calls (`Props/Listed.lean`) | the list of nodes is ascending in the indexes: an invariant of sessions (`Lemmas/InOrder.lean`, `Lemmas/Sessions.lean`) |
| C111 | both style constructors, their setters and the attributes written (`Props/StyleShown.lean`; what is to be shown, from the arguments: `Spec/StyleShown.lean`) | by cases on which arguments are given |
| C112 | `append` and both constructors on the ledger of a graph (`Spec/Describe.lean`), also in programs that do other things in between (`Play`) | each step of `append` follows a step on the ledger (`Follows`, `Props/Describe.lean`); the other calls leave the graph alone (`C96_objects`) |
| C113 | which node and which edges a call is about, independence of two calls, programs of two parties (`Spec/Independent.lean`) | on ledgers: a call changes only the entries it is about, and what it does depends on them only (`Ledger.Local`, `Lemmas/Independent.lean`); a call independent of those after it can be postponed; induction on the schedule; C107 carries it over to the program |
| C114 | `stylize` and `render` of the model, with a display that has settings for single nodes and edges (`Props/Leftover.lean`) | every phase of `stylize` leaves nodes and edges alone (`Silent`), so a phase that succeeds found every node and edge it asked for; C107 and C07 say what is gone after a removal |
| C115 | a depth-first search that notes depth and origin of every find (`Spec/Trace.lean`), nothing from the model | induction on the stack frames and, inside, on the neighbours still to come; the neighbour's dictionary is written over the own one exactly if it found something (`Lemmas/Trace.lean`) |
| C116 | a walk that meets nodes repeatedly (`Meet` in `Spec/Meet.lean`), nothing from the model | induction on the stack frames and on the parents still to come: the list so far is the first occurrences of what was met so far (`Lemmas/Meet.lean`) |
| C117 | a depth-limited search (`Limited` in `Spec/Meet.lean`), nothing from the model | the same induction; the limited call is compared with the unlimited one call by call, the objects not gone into yet being at most as many as the levels left |
| C118 | what settings have to be like (`Sensible` in `Spec/Sensible.lean`), nothing else from the model | every step succeeds in every state that differs from the first only in styles, has all nodes of the graph styled and all its edges in styles that can be copied; the stylists establish this (`Lemmas/CanStyle.lean`). The converse is C114 |
| C119 | as C118 | as C118, the styles being assigned to nodes and edges without one; conversely the first step that assigns a style a second time raises |
| C120 | edges between names (`Joined` in `Spec/Shape.lean`) and their transitive closure (`Leads`) | the result is the induced subgraph (C34); every node on a path between kept names is kept, because relatives of relatives on that path are relatives; `C120_lost` is a path that is lost |
| C121 | what is seen of a node and of an edge (`Spec/Seen.lean`), pairs of states | the source is read back (C44) and what it says is taken apart: every attribute has a key of its own; `C121_violated` forges a source by a name with quotes |
| C122 | tree strings of pairs of states | drawings of outlines can be read in one way only (`Lemmas/ReadOutline.lean`, induction over the outline with what may follow it); with C28 every node and its children are on it; `C122_violated`, `C122_label_violated` for line breaks and labels |
| C123 | the traversals with a number of stack frames (one per recursive call; the frames of helpers are not counted), the noting search of `Spec/Trace.lean` | induction over the search (`Lemmas/StackDepth.lean`): with `fuel` frames left the loop succeeds exactly if all its finds are less than `fuel` deeper; every find has a walk of its depth, so a far relative is a deep find |
| C124 | two or three calls of `filter`, names given | the names kept are characterised by the paths (C34), and C120 says which paths a first call leaves; results are sublists of the names, so membership decides them with their order |
| C125 | `from_indented_text`, then `get_descendants('root')` and `get_tree_str` | the outline of C28 of the tree of C40 has no marks by counting; the lines below a line are the block of deeper lines after it (induction on the length of the block); a node directly after a shallower one is its child, which a blank line never has |
| C126 | all methods that take a node (`Spec/Question.lean` lists the questions), `connect`, `remove_node`, `filter` | each looks its argument up first; that an answer follows is C21, C27, C57 for reachable states |
| C127 | `Node.get_tree_str`, `BasicGraph.get_tree_str`, `get_descendants` | `Spec/Drawing.lean` says what a drawing is; a depth-first search determines it (induction over the search), and the recursion draws it (induction over the drawing) |
| C128 | everything that recurses | a relation between two runs (`Spec/Frames.lean`), kept by every construct of the model; induction over the frames for the recursive functions |
| C129 | `from_indented_text`, `parse_indentations` | the parser reads an outline (C39), the graph is built from line numbers and parents only; conversely the parents are read off the edges and give the levels by induction |
| C130 | `add`, `+` | sums as expressions; induction over the expression with what a sum shows at each name as specification |
| C131 | `Node.__str__`, `Edge.__str__` | names are strings in every reachable state, so prints of nodes are injective; for edges a lemma on separators whose first character does not come again. The property is false of parallel edges, of names with `-Node:` and of removed edges |
| C132 | all mutating calls | a relation between the heap before and after any history (`Lemmas/Later.lean`), now with the ends of edges; with the refinement to the abstract graph it says that a dead edge stays dead; the same for sessions, where sums, dictionaries, `stylize` and `render` are calls too (`Lemmas/Lasting.lean`) |
| C78 | style objects from dictionaries, `Spec/StyleDict.lean` | fold over the items |
| C79-C81 | sessions: histories of calls with the contents of styles and settings (`Model/Session.lean`, `CopyWorld.lean`) | invariant over calls; locality of the stylists; memo of the copy |

## 3. What is modelled, file by file

Modelled means: every statement and branch, with its exceptions, in the order of the code.

| file | modelled | not modelled |
|------|----------|--------------|
| `_GraphObj.py` | everything (attributes, `__eq__`, `__ne__`, `__hash__`, `get`/`set`, freezing, labels, state) | the SHA-256 digest in `__hash__` is an arbitrary function of (graph, id) |
| `Node.py` | everything | type annotations |
| `Edge.py` | everything | |
| `_BasicGraph.py` | everything: construction, `add_node`, `connect`, `remove_node`, `disconnect`, queries, loops, traversals, trees, `copy`, `filter`, `from_lists`, `from_object`, `from_indented_text`, `is_similar_to` | texts of warnings (a warning never stops the program here) |
| `_GraphWithoutDisplay.py` | constructor, `append`, `from_dict`, `__graph__`, `random`, `+`, `stylize`, header and body of the Graphviz source, `render` with and without a path | the work of Graphviz: of the `Source` object there are the text, the name and the format, `display_html` (commented out) |
| `get_ancestors.py`, `get_descendants.py` | everything, for arbitrary objects | |
| `parse_indentations_function.py` | everything | |
| `styling/*` | everything: both style classes, both stylists, inheritance, colour selection | |
| `Graph.py` | everything; Graphviz and IPython are arbitrary functions (`Engine`) | the pictures themselves |

Simplifications, each repeated at the definition concerned:

* Names are `str` or `int`; edge ids are `None`, `str`, `int`; labels, values and tooltips are `Val` (`None`, an `int`, a `str`, or
  an opaque truthy object with a text that equals only itself). `bool` is not used as a name (in Python `True == 1`).
* Floats are rational numbers. The theorems about colour fractions (C47, C50) are exact in rationals; rounding is left out.
* The package `colouration` is not part of the code base: colours are an arbitrary type `C` with arbitrary operations
  (`Palette C`: mixing, lightening, darkening, a text for Graphviz ...). No law about them is assumed, unless a theorem names it.
  `Colour(obj=c)` is `c`. Colour schemes are lists of colours.
* `random.random()` is an arbitrary sequence of rationals in [0, 1); `random.shuffle` is an arbitrary permutation.
* An item `colour` of a style dictionary is never `None`.
* `copy.deepcopy` is a memoised traversal; values, labels and parameters are copied to themselves.
* The SHA-256 digest, `hash(str)` and `id()` are arbitrary functions.
* `re`, `str.split` and `str.strip` are modelled as far as the parser uses them. Python strings are lists of code points.
* The DOT grammar of `Spec/Dot.lean` covers the fragment the code can produce (quoted strings, bare words, attribute lists, node,
  edge and default statements, one graph). It is written from the DOT language definition, not from the code.
* A recursive function has a number `lim` of stack frames; the functions it calls on the way have `lim` frames of their own, not what is
  left. By C128 this matters for whether RecursionError is raised, never for what is returned.
* Graphs and their objects are used by one thread; signals and `MemoryError` are left out.

Histories (`Op`) contain: making graphs; `add_node` with a name or a node object, any policy and style; `connect`, `connect_to`,
`connect_from`; `remove_node`; `disconnect`; `remove_self`; setting values, labels, styles, parameters; freezing; `copy`; the options set
by `append`. `filter`, `append`, `from_lists`, `from_object`, `+` ... are proved to be histories of these. Excluded is adding one detached
node object to a second graph, which breaks the isolation of graphs and is treated by itself (C56). Also excluded, and treated by
themselves, are `raw_id = x` (C82), making `Edge` objects directly (C83) and the methods for one end of an edge, `append_outward_edge`,
`remove_outward_edge` ... (C90). `remove_edges` is a history of `remove_self` calls (C89). Not modelled is code that writes to
`nodes_dict`, `outward_edges_dict` or `inward_edges_dict` itself, or calls `update_edges` outside `copy`. Keyword arguments never have the name of a parameter (Python raises `TypeError` before the call).

## 4. Trusted base

* Lean 4.33 and its kernel; `vcheck` replays every module.
* The axioms below, as reported by `#print axioms`. No axiom is declared in this project, there is no `sorry`, `native_decide` or
  `bv_decide`, no `implemented_by` and no `extern`. `decide +kernel` (used for concrete examples and witnesses) is checked by the kernel.
* The reading of the Python source that the comments at the definitions document, with the simplifications of section 3.
* The specifications in `Spec/`, which say what the English statements mean.

<!-- axioms -->
* Classical.choice, Quot.sound, propext (449 theorems): C01_outward, C01_inward, C01_registered, C02_refines, C02_nodup, C03_never_weird, C03_connect_succeeds, C04_connect_again, C04_identity, C04_same_edge, C05_exists, C05_bad_style, C06_remove_node, C07_disconnect, C07_remove_self, C07_dead, C07_twice, C08_new, C08_existing, C09_increasing, C09_total_order, C09_eq_identity, C10_isolated, C11_edges, C11_edges_dict, C11_degrees, C12_session_partial, C12_known_partial, C12_owned_partial, C12_either, C12_readd_partial, C13_name_partial, C13_node_raises, C14_node, C14_edge, C14_session, C15_node, C15_edge, C15_session, C16_disconnected, C16_removed, C16_hash, C16_edges_partial, C16_edges_exact, C17_parallel_violated, C17_no_parallel_partial, C18_ancestors, C18_node_ancestors, C19_descendants, C19_node_descendants, C20_dual, C20_count, C21_terminates, C21_node, C22_in_loop, C22_in_loop_total, C22_loop_nodes, C22_readme, C23_same_loop, C23_same_loop_total, C23_equivalence, C23_edge, C24_ancestors_partial, C24_descendants_partial, C24_ancestors_one_partial, C24_descendants_one_partial, C24_ancestors_violated, C24_descendants_violated, C25_roots, C26_exact, C26_raises, C26_acyclic, C27_counts, C27_exact, C27_symmetric, C27_node, C28_tree, C29_reachability, C29_any_stack, C30_limited_partial, C30_two_partial, C30_distances_partial, C31_copy, C31_similar, C32_original, C32_disjoint, C32_independent, C33_unstyled_partial, C33_settings_lost, C34_include_partial, C34_exclude_partial, C34_unknown, C35_to_partial, C35_from_partial, C35_violated_witness, C36_from_lists, C37_from_dict, C37_from_names, C37_refused, C38_append_twice, C38_reachable, C39_exact, C39_detected_exact, C39_violated, C39_given_partial, C39_detected_partial, C40_all_lines, C40_too_deep, C40_text, C40_text_raises, C40_tree, C41_exact, C41_acyclic, C41_count, C41_none, C41_all, C42_transitive, C42_exact, C42_reflexive, C42_symmetric, C42_raises_partial, C42_raises_exact, C42_names_violated, C43_edges_violated, C43_object_partial, C43_parallel_partial, C43_union_partial, C43_values_violated, C43_labels_violated, C43_operand_violated, C44_source_partial, C44_statements_partial, C44_violated, C45_label, C45_name, C45_edge_label, C45_violated, C47_spread, C47_select, C48_succeeds_iff, C48_all_styled_partial, C48_no_colours, C48_violated, C49_with_permission_partial, C49_without_permission, C49_render_partial, C49_violated, C49_pensieve, C50_exact, C50_compound, C50_violated, C50_own_partial, C51_terminates, C51_succeeds, C52_rank, C52_distinct, C53_node_copy, C53_edge_copy_partial, C53_node_invert_partial, C53_node_invert_violated, C53_edge_copy_violated, C53_edge_copy_exact, C53_node_invert_exact, C54_strings_partial, C54_order_violated, C55_taken_violated, C55_new_name_partial, C56_one_graph_partial, C56_violated, C57_get_edges, C57_children, C57_parents, C57_node, C57_name, C57_outward_by_id, C57_inward_by_id, C58_initial, C58_initial_edge, C59_options, C59_session, C60_label, C61_violated, C61_number_partial, C62_violated, C62_violated_filter, C62_structure_partial, C63_round_robin, C64_inherits, C65_settings, C66_violated, C67_only_styles, C67_same_graph, C68_render, C69_ignored_violated, C69_no_size_violated, C70_colours_need_permission, C71_nodes, C71_edges, C72_edges_alike, C72_nodes_alike_partial, C72_untouched, C72_violated, C73_circle_partial, C73_empty_violated, C73_violated, C74_round_robin, C74_balanced, C75_export_partial, C75_edges_violated, C75_label_violated, C75_graph_partial, C75_labels_violated, C76_append_partial, C76_structure, C76_succeeds, C76_label_violated, C76_edge_styles_violated, C77_construct_partial, C77_display, C77_structure, C77_succeeds, C77_violated, C78_node, C78_edge, C78_unknown_key, C78_add_node, C78_connect, C78_set_style, C78_refused, C78_texts, C79_sessions, C79_private_partial, C79_violated, C80_stylize_partial, C80_picture_partial, C80_violated, C81_copy_partial, C82_structure_partial, C82_lookup_violated, C82_edges_violated, C82_remove_violated, C82_edge_id_violated, C83_like_connect_partial, C83_taken_violated, C83_foreign_violated, C84_no_path, C84_returned, C84_saved_partial, C84_format_violated, C84_svg, C84_svg_text, C84_twice_violated, C85_draws_partial, C85_label_violated, C85_readded_violated, C86_edge_partial, C86_copy_violated, C87_dictionaries, C87_node_violated, C87_edge_violated, C87_no_edges_partial, C88_node_partial, C88_setter_violated, C88_text, C88_darker_violated, C89_remove_edges, C90_remove_half_violated, C90_both_partial, C90_append_partial, C90_append_violated, C91_defaults, C91_pensieve, C91_randomly, C91_keeps_partial, C91_lighter_violated, C92_independent, C92_violated, C93_keeps_partial, C93_label_violated, C93_size, C93_deepcopy_violated, C94_violated, C95_nodes, C95_edges, C95_painted, C96_call, C96_objects, C96_private_partial, C96_calls_partial, C96_violated, C97_hypotheses, C97_shows_partial, C97_again_partial, C97_lasting_partial, C98_connect_partial, C98_add_node_partial, C98_connect_violated, C98_add_node_violated, C98_append_partial, C98_append_violated, C99_ancestors, C99_loops, C99_acyclic, C100_remove_node, C100_disconnect, C100_parallel, C100_shrinks, C101_connect, C101_add_node, C102_reachability, C102_loops, C102_siblings, C102_ends, C102_roots, C102_similar, C102_copy, C103_from_dict, C103_from_dict_shape, C103_from_lists, C103_from_lists_differ, C104_grow, C104_grow_reach, C104_shrink, C104_shrink_reach, C104_still, C104_calls_grow, C104_calls_shrink, C105_result, C105_order, C106_result, C106_order, C107_exists, C107_step, C107_interleaved, C107_alike, C107_shape, C107_copy, C107_copy_behaves, C108_alike, C108_alike_home, C108_after, C108_copy, C108_copy_after, C109_share_violated, C109_order_violated, C109_source, C109_draw_partial, C109_draws_partial, C109_tidy_partial, C109_unstyled_partial, C110_order_partial, C110_sorted_partial, C110_rank_partial, C110_violated, C111_node_colours, C111_node_shown, C111_edge_shown, C111_node_assigned, C111_node_reset, C111_recolour_violated, C111_edge_assigned, C112_append, C112_dict, C112_program, C112_from_new, C113_commute, C113_alone, C113_serial, C113_schedules, C114_known, C114_rendered, C114_key_error, C114_node_removed, C114_edge_removed, C115_objects, C115_nodes, C116_order, C116_first, C117_large, C118_styled, C118_drawn, C119_first, C119_drawn, C120_exclude, C120_exact, C120_include, C120_one, C120_loops, C120_queries, C120_lost, C121_same_partial, C121_shape_partial, C121_settings_partial, C121_render_partial, C121_violated, C122_same_partial, C122_violated, C122_label_violated, C123_objects, C123_descendants, C123_ancestors, C123_far_descendant, C123_far_ancestor, C124_again, C124_gone, C124_split, C124_union, C124_exclude, C124_both, C125_tree, C125_order, C125_gap, C126_stands_for, C126_known, C126_node_name, C127_node, C127_order, C127_enough, C127_frames, C127_graph, C128_questions, C128_nodes, C128_objects, C128_filter, C128_draw, C128_given, C128_shown, C128_any_two, C129_reindent, C129_detected, C129_recover, C130_names_partial, C130_values, C130_disjoint_partial, C130_order_violated, C130_brackets_violated, C131_session, C131_node, C131_edge, C131_edge_lasts, C131_ends_partial, C131_dash_violated, C131_removed_violated, C132_node, C132_edge_gone, C132_edge, C132_session_node, C132_session_edge_gone, C132_session_edge.
* Quot.sound, propext (41 theorems): C02_total, C05_unknown_end, C05_unknown, C08_error, C08_rejected, C12_readded_has_no_graph, C15_attempt, C15_allowed, C16_edges_incoherent, C17_strict_not_enforced, C30_missed, C30_one_partial, C33_violated, C34_violated, C35_violated, C37_ids, C37_unusable, C40_parent, C40_earlier, C43_default_values, C46_round_robin, C46_even, C53_edge_invert_partial, C53_edge_invert_exact, C58_node, C58_edge, C81_violated, C84_path, C86_edge_violated, C86_original, C88_edge_partial, C111_edge_colours, C112_new, C115_listed, C117_limited, C126_same, C126_unknown, C126_same_loop, C126_filter, C126_calls_unknown, C131_parallel_violated.
* no axioms (4 theorems): C46_empty, C55_clobbers, C56_shared_node, C82_taken_violated.
* propext (16 theorems): C14_attempt, C16_nodes, C21_unknown, C24_lost_ancestor, C24_lost_child, C24_lost_parent, C33_violated_reachable, C37_in_order, C42_violated, C45_no_backslash, C54_violated, C57_unknown, C60_set, C86_node_violated, C95_has, C126_calls.
<!-- /axioms -->

## 5. Where the code disagrees with what its users expect

Each line is a theorem about the model of the code as it is.

| theorem | what happens |
|---------|--------------|
| `C12_readded_has_no_graph` | a node that was removed and added again has no graph: its own methods raise |
| `C13_node_raises` | `node in graph` raises `TypeError` for a node of another name |
| `C16_edges_incoherent` | for edges, `a == b` and `a != b` can both be false |
| `C17_strict_not_enforced` | a strict graph accepts parallel edges |
| `C24_lost_ancestor`, `C24_lost_child`, `C24_lost_parent` | the distance dictionaries miss relatives |
| `C30_missed` | `max_depth=3` misses an object at distance 3 |
| `C33_violated`, `C34_violated` | `copy` and `filter` raise `KeyError` as soon as a node has a style |
| `C33_settings_lost`, `C62_violated`, `C62_violated_filter` | copies and filtered graphs cannot be drawn |
| `C35_violated` | `filter` ignores its direction |
| `C39_violated` | text that contains the indentation unit loses it |
| `C42_violated` | `is_similar_to` raises `KeyError` instead of answering False |
| `C43_edges_violated`, `C43_values_violated`, `C43_labels_violated`, `C43_operand_violated` | `+` fails with edges, does not add values, loses labels and changes its left operand |
| `C44_violated`, `C45_violated` | names and labels with quotes or backslashes break the Graphviz source |
| `C48_violated` | the default stylist raises `AttributeError` on a -> b -> c -> b |
| `C49_violated` | the second rendering raises `RuntimeError` |
| `C50_violated` | arrow sizes accumulate from edge to edge |
| `C53_edge_copy_violated`, `C53_node_invert_violated` | copies of edge styles lose settings; inverting twice is not the identity |
| `C54_violated`, `C54_order_violated` | `from_object` fails for every object with an integer hash |
| `C55_clobbers` | `Node(name=..., graph=...)` with a taken name damages the graph |
| `C82_lookup_violated`, `C82_edges_violated`, `C82_remove_violated`, `C82_taken_violated`, `C82_edge_id_violated` | `raw_id = x` leaves the graph's dictionaries as they were: the node is not found any more, it and its edges cannot be deleted, or another node is deleted in its place |
| `C83_taken_violated`, `C83_foreign_violated` | `Edge(...)` pushes out the edge with the same id, and accepts nodes of other graphs |
| `C56_shared_node` | one node object can be in two graphs |
| `C61_violated` | `from_indented_text` does not show the text |
| `C66_violated` | `ordering=True` is written to the source exactly if it is False |
| `C69_ignored_violated`, `C69_no_size_violated` | `height` and `width` have no effect |
| `C84_format_violated`, `C84_twice_violated` | `render(path)` drops the extension and saves in the standard format; a graph painted at random can be shown once |
| `C85_label_violated`, `C85_readded_violated` | labels without location, or with an empty one, and nodes that were removed and added again make drawing raise |
| `C72_violated`, `C73_violated`, `C73_empty_violated` | a style for all nodes leaves random colours; shape `auto` survives or raises |
| `C75_edges_violated`, `C75_label_violated`, `C75_labels_violated` | `Graph(obj=g)` fails with edges or without label, and loses node labels |
| `C79_violated`, `C80_violated` | `Graph(obj=g)` shares the style objects of the nodes of `g`: styling the new graph can change the look of `g` |
| `C96_violated` | ... and so its picture |
| `C98_connect_violated`, `C98_add_node_violated` | a value refused because of `freeze` leaves the new label and style behind |
| `C98_append_violated` | `append` of a dictionary with an edge to an unknown node raises after the nodes were added |
| `C81_violated` | a graph with a styled node cannot be copied: `KeyError` |
| `C86_node_violated`, `C86_edge_violated`, `C86_copy_violated` | node styles cannot be deep-copied; deep copies of edge styles, and so the edge styles of copied graphs, can be neither copied nor inverted |
| `C87_node_violated`, `C87_edge_violated` | a style object as `node_style` (or `edge_style`, if there is an edge) makes `stylize` and `render` raise |
| `C88_setter_violated`, `C88_darker_violated` | `invert_colours` forgets a fill or border colour assigned later, and `lighter_fill=False` |
| `C90_remove_half_violated`, `C90_append_violated` | `remove_outward_edge` alone leaves an edge that cannot be removed, whose end cannot be removed and whose ends cannot be connected again; `append_outward_edge` lists an edge at a node where it does not start |
| `C91_lighter_violated`, `C92_violated` | a given node style loses `lighter_fill`; the colours of children do not come from their parents but all from the given style |
| `C93_label_violated`, `C93_deepcopy_violated` | every painted edge has its label below, whatever the given edge style says; a deep-copied edge style makes the stylists raise |
| `C94_violated` | nodes in a loop are painted like all the others: as rounded boxes |
| `C17_parallel_violated`, `C24_ancestors_violated`, `C24_descendants_violated`, `C42_names_violated`, `C55_taken_violated`, `C56_violated` | the violations above, for every graph they concern and not only for one |
| `C109_share_violated`, `C109_order_violated` | graphs that look alike are drawn differently if two nodes of one of them share a style object, or if a node was removed and added back |
| `C110_violated` | a node that was removed and added back is listed last but compares smaller than nodes listed before it |
| `C111_recolour_violated` | assigning the main colour of a node style changes nothing in the picture |
| `C114_node_removed`, `C114_edge_removed` | styles and colours given for a node or an edge stay when it is removed; from then on `stylize` and `render` raise |
| `C121_violated` | a graph with one node, whose name contains quotes, has the same source as a graph with two nodes |
| `C122_violated`, `C122_label_violated` | names with line breaks, and labels, give different graphs the same tree string |
| `C125_gap` | after `a`, an empty line and an indented `b`, the lines are not listed in their order: the empty line became a sibling of `a` and comes after `b` |
| `C130_order_violated`, `C130_brackets_violated` | the values in a sum depend on the order and on the brackets |
| `C131_removed_violated` | an edge removed with `remove_self`, or with one of its nodes, cannot be printed: `print(edge)` raises `ValueError` (after `disconnect` it prints as before) |
| `C131_parallel_violated`, `C131_dash_violated` | edges with different ids, or with ends whose names contain `-Node:`, print alike |
| `C76_label_violated`, `C76_edge_styles_violated`, `C77_violated` | `append` adds a line break to the label, files styles among the colours; the constructor's default stylist wins over the dictionary's |

## 6. Mutation tests

`seeded/LOG.jsonl` has one line per wrong program: an edit of a model definition in a scratch copy, the claim it breaks, the theorems
that no longer prove, and the theorems tightened when one survived.
