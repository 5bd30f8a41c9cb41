{
 "C01": {
  "status": "proved",
  "note": "For every reachable heap: an edge is listed as outward at its start iff it is listed as inward at its end, and both nodes are registered in the edge's graph."
 },
 "C02": {
  "status": "proved",
  "note": "Refinement: after any history the observable nodes and edges of every graph are those of the abstract multigraph driven by the same calls and results; failing calls change nothing there; names and edge ids are unique."
 },
 "C03": {
  "status": "proved",
  "note": "connect never reports an inconsistency, and succeeds under the stated preconditions with an edge of the requested id listed at both ends."
 },
 "C04": {
  "status": "proved",
  "note": ""
 },
 "C05": {
  "status": "proved",
  "note": "Unknown end point (C05_unknown, C05_unknown_end), policy 'error' and rejected style on a new edge all leave the whole heap unchanged."
 },
 "C06": {
  "status": "proved",
  "note": ""
 },
 "C07": {
  "status": "proved",
  "note": "Covers disconnect and remove_self on live edges, dead edges, and calling either twice."
 },
 "C08": {
  "status": "proved",
  "note": "New name, existing name, policy 'error', and rejected style."
 },
 "C09": {
  "status": "proved",
  "note": ""
 },
 "C10": {
  "status": "proved",
  "note": "For every call that is on one graph; adding the same detached node object to two graphs is excluded from histories and treated in C56."
 },
 "C11": {
  "status": "proved",
  "note": ""
 },
 "C13": {
  "status": "partial",
  "note": "Proved for names. For Node objects the claim is false: C13_node_raises shows 'node in graph' raising TypeError."
 },
 "C14": {
  "status": "proved",
  "note": "Also for whole sessions, with sums, append, stylize and render among the calls (`C14_session`)."
 },
 "C15": {
  "status": "proved",
  "note": "Also for whole sessions, with stylize, render and append among the calls (`C15_session`)."
 },
 "C16": {
  "status": "partial",
  "note": "Proved for nodes, and for == and hash on edges. != on edges compares the extra ids only: C16_edges_exact says for which pairs of edges neither == nor != holds (different edges with the same extra id), C16_edges_incoherent is a reachable instance. C16_disconnected and C16_removed say what comparing a deleted edge does."
 },
 "C12": {
  "status": "partial",
  "note": "False as stated: C12_readded_has_no_graph shows for every state that a re-added node has no graph and its own methods raise. Proved: the graph-level behaviour after remove and re-add; that every node knows its graph in every history in which no node object is given to add_node (C12_owned_partial, C12_session_partial), and in any history knows it or none (C12_either)."
 },
 "C17": {
  "status": "partial",
  "note": "False as stated, in every graph: C17_parallel_violated adds a second edge beside any edge; C17_strict_not_enforced is an instance. Proved: without explicit edge ids there are no parallel edges in any graph."
 },
 "C55": {
  "status": "partial",
  "note": "False for every taken name in every graph: C55_taken_violated; C55_clobbers is an instance. Proved for names that are not taken."
 },
 "C56": {
  "status": "partial",
  "note": "False, in every reachable state: C56_violated takes any node of any graph, removes it, adds it back and adds it to any other graph without a node of that name; all calls succeed, the node is in both graphs, and a later connect in the first gives it a child in the second that the second does not have. C56_shared_node is one instance. Proved for all histories without the one call that re-adds a detached node to a second graph."
 },
 "C18": {
  "status": "proved",
  "note": ""
 },
 "C19": {
  "status": "proved",
  "note": "Reachability plus depth-first preorder (inductive spec Pre)."
 },
 "C20": {
  "status": "proved",
  "note": ""
 },
 "C21": {
  "status": "proved",
  "note": "Stack frames = number of nodes suffice; no node entered twice."
 },
 "C22": {
  "status": "proved",
  "note": "Includes the README definition with the missing self-loop case made explicit. loop_nodes assumes every node's graph attribute is set (see C12)."
 },
 "C23": {
  "status": "proved",
  "note": ""
 },
 "C24": {
  "status": "partial",
  "note": "Completeness is false in every graph with two relatives at the same distance that are not parents (children) of one node: C24_ancestors_violated, C24_descendants_violated, because an entry lists the neighbours of a single node only (C24_ancestors_one_partial, C24_descendants_one_partial); C24_lost_ancestor, C24_lost_child, C24_lost_parent are instances. Proved: soundness of every listed distance, and completeness for chains."
 },
 "C25": {
  "status": "proved",
  "note": "Loop invariant of roots: coverage and antichain; in acyclic graphs the roots are the nodes without parents."
 },
 "C26": {
  "status": "proved",
  "note": "Exact where every node's graph attribute is set (see C12); C26_raises: they raise AttributeError exactly where one is not."
 },
 "C27": {
  "status": "proved",
  "note": "Node.siblings/co_parents equal the graph methods as lists when every node's graph attribute is set (see C12)."
 },
 "C28": {
  "status": "proved",
  "note": "The string is the drawing (separate specification Spec/Outline.lean) of a forest with the stated properties. Assumes every node's graph attribute is set (see C12)."
 },
 "C29": {
  "status": "proved",
  "note": ""
 },
 "C30": {
  "status": "partial",
  "note": "False at max_depth=3: C30_missed. Proved for every object graph: termination, soundness, exactness up to limit 2, completeness up to distance 2 for every limit, exactness for graded object graphs (e.g. trees)."
 },
 "C52": {
  "status": "proved",
  "note": ""
 },
 "C39": {
  "status": "partial",
  "note": "The parser is proved to return, for every sequence of lines each of which is written with the given (or detected) indentation unit, one item per line with the right level, content and parent when the unit is a single character, when no content contains the unit, or when it is four spaces. The property as stated is violated: a longer unit that occurs again inside a line's text is cut out of the text (C39_violated)."
 },
 "C40": {
  "status": "proved",
  "note": ""
 },
 "C31": {
  "status": "proved",
  "note": "For graphs in which no node has a style (as the property says); is_similar_to additionally needs the edges to have no style, since edge styles are compared by identity. copy.deepcopy is modelled as one memoised pass over the nodes and edges of the graph."
 },
 "C32": {
  "status": "proved",
  "note": ""
 },
 "C33": {
  "status": "partial",
  "note": "Violated: copy raises KeyError as soon as one node has a style (C33_violated, C33_violated_reachable), and a copy loses its settings (C33_settings_lost). C33_unstyled_partial: copy succeeds for every reachable graph without node styles. Rendering the copy is C62."
 },
 "C42": {
  "status": "partial",
  "note": "The meaning of a True answer, reflexivity and symmetry are proved. Never raising is violated: C42_names_violated for every two graphs of one size with no name in common, and C42_raises_exact says exactly when KeyError is raised instead of False."
 },
 "C57": {
  "status": "proved",
  "note": ""
 },
 "C58": {
  "status": "proved",
  "note": ""
 },
 "C59": {
  "status": "proved",
  "note": "Quantifies over the calls in the Op type; append, which overwrites strict and ordering from its dictionary, is treated under C37. For sessions: style_overwrite_allowed never changes (`C59_session`)."
 },
 "C60": {
  "status": "proved",
  "note": "For labels that are None or strings."
 },
 "C34": {
  "status": "partial",
  "note": "Proved for graphs without node styles whose nodes know their graph (C34_include_partial, C34_exclude_partial, C34_unknown). As stated it is violated: a styled node makes filter raise (C34_violated)."
 },
 "C35": {
  "status": "partial",
  "note": "As stated it is violated: direction has no effect at all (C35_violated, C35_violated_witness). C35_to_partial and C35_from_partial give the cases in which the outcome is nevertheless the documented one."
 },
 "C36": {
  "status": "proved",
  "note": ""
 },
 "C37": {
  "status": "proved",
  "note": ""
 },
 "C38": {
  "status": "proved",
  "note": "The second append may raise (a style given twice); no structure changes in that case either."
 },
 "C41": {
  "status": "proved",
  "note": "Draws are any sequence of rationals in [0,1); probabilities are rationals."
 },
 "C61": {
  "status": "partial",
  "note": "Violated: the label is \"line i\" and the text appears nowhere (C61_violated); the line numbers are shown."
 },
 "C46": {
  "status": "proved",
  "note": "All inputs; the order and number of colours handed out and the balance of the use counts."
 },
 "C47": {
  "status": "proved",
  "note": "The fractions are modelled as exact rationals; Python's floats represent every k/2^n exactly up to 2^-1074."
 },
 "C53": {
  "status": "partial",
  "note": "Node style copies are proved equal. Edge style copies are violated (C53_edge_copy_violated), C53_edge_copy_exact says exactly when they are equal; inverting twice is the identity only under stated conditions (C53_node_invert_violated), C53_node_invert_exact and C53_edge_invert_exact say exactly when, for every history of the style."
 },
 "C48": {
  "status": "partial",
  "note": "C48_succeeds_iff: with colours in the scheme and edge values that can be multiplied, the stylist succeeds exactly when no unstyled edge starts at an unstyled node on a cycle that has a parent off all cycles, and otherwise raises AttributeError. C48_all_styled_partial: without such nodes everything gets a style and earlier styles are kept. C48_violated: a -> b -> c -> b raises AttributeError, so the property as stated is false. Colours come from an arbitrary type with arbitrary operations."
 },
 "C50": {
  "status": "partial",
  "note": "The property is false: C50_violated (the sizes are carried over from edge to edge). C50_compound gives the size of every arrow exactly; C50_exact says exactly which arrows get the stated size; C50_own_partial proves it for edges before which no edge with a value other than 1 is styled."
 },
 "C51": {
  "status": "proved",
  "note": "C51_terminates, C51_succeeds: with as many frames as the graph has nodes inherit_style returns the inherited style (Spec/Paint.lean, Tint), or raises AttributeError because a node it inherits from has no style; it never runs out of frames and never indexes an empty list."
 },
 "C63": {
  "status": "proved",
  "note": ""
 },
 "C64": {
  "status": "proved",
  "note": "Stated for graphs on which C48_all_styled_partial applies."
 },
 "C44": {
  "status": "partial",
  "note": "Proved for graphs whose names, labels, tooltips and attributes may stand between quotes: the source is a graph of the DOT language (Spec/Dot.lean) and says exactly what pictureOf says. False for other names: a node named a\" -> \"b turns into an edge statement (C44_violated)."
 },
 "C45": {
  "status": "partial",
  "note": "Exact characterisation of the strings that are quoted safely: labels iff runs of backslashes before quotes, line ends and the end are even; names and edge labels, which are not escaped, moreover iff there is no quote. The label a\\ makes the source unreadable (C45_violated)."
 },
 "C62": {
  "status": "partial",
  "note": "Every copy and every filtered graph lacks the display attributes: stylize, render and the Graphviz source raise AttributeError (C62_violated, C62_violated_filter). The structure is copied (C62_structure_partial)."
 },
 "C65": {
  "status": "proved",
  "note": "For graphs whose texts may stand between quotes (Drawable)."
 },
 "C66": {
  "status": "partial",
  "note": "False for every graph that can be drawn: ordering=out is written exactly if ordering is False."
 },
 "C49": {
  "status": "partial",
  "note": "Proved for every stylist and setting with style_overwrite_allowed=True (C49_with_permission_partial, C49_render_partial: rendering again returns the same source). Without it, C49_without_permission says exactly when the second call succeeds and that it raises RuntimeError otherwise; C49_violated is a concrete case. Assumes that no two nodes share a style object."
 },
 "C67": {
  "status": "proved",
  "note": "Whatever the settings and however stylize ends."
 },
 "C68": {
  "status": "proved",
  "note": "The texts of the styled graph must be quotable (Drawable), as in C44."
 },
 "C69": {
  "status": "partial",
  "note": "Violated: render without a path ignores height and width (C69_ignored_violated), and the source sets no size (C69_no_size_violated)."
 },
 "C70": {
  "status": "proved",
  "note": "From any reachable state in which no two nodes share a style object."
 },
 "C71": {
  "status": "proved",
  "note": "nodes and edges; all three levels of settings. Settings are dictionaries (each key once); no style object is shared between nodes."
 },
 "C72": {
  "status": "partial",
  "note": "edges: all stylists; nodes: all stylists but stylize_randomly, for which C72_violated shows a counterexample (fill colours stay random)."
 },
 "C73": {
  "status": "partial",
  "note": "circles for short names proved; violated for longer names (shape stays auto, C73_violated) and for graphs without nodes (ValueError, C73_empty_violated)."
 },
 "C74": {
  "status": "proved",
  "note": "every shuffle that permutes the nodes."
 },
 "C76": {
  "status": "partial",
  "note": "C76_append_partial: after append of any dictionary whose edge settings name edges it lists, every display attribute is the one stated (Dicts.after); C76_structure and C76_succeeds: nodes, edges and success. Missing: false as stated for the label, which gets a line break in front (C76_label_violated), and for edge_styles, which end up among the colours (C76_edge_styles_violated)."
 },
 "C77": {
  "status": "partial",
  "note": "C77_construct_partial, C77_display, C77_structure, C77_succeeds: scheme, stylist, options, nodes and edges of Graph(obj=D), other graphs unchanged. Missing: false as stated for the stylist, because the default argument is not None (C77_violated)."
 },
 "C78": {
  "status": "proved",
  "note": "Every style made from a dictionary is the one described (NodeStyle.Described, EdgeStyle.Described), also when given to add_node or connect; refused iff a key is unknown."
 },
 "C43": {
  "status": "partial",
  "note": "C43_union_partial: for two graphs without edges the sum has the union of the nodes, values of nodes of one graph are kept, shared values come from the right graph twice, no graph is touched; C43_object_partial: right operand any object with __graph__(), edges included; C43_parallel_partial: also with several entries for the same edge; C43_default_values: how values are added. Missing: false as stated. + raises AttributeError as soon as a graph has an edge (C43_edges_violated), shared values are not summed (C43_values_violated), labels are lost (C43_labels_violated), the left operand's settings change (C43_operand_violated)."
 },
 "C75": {
  "status": "partial",
  "note": "C75_graph_partial: for a graph without edges and with a label, Graph(obj=g) has its options, names, values, colour scheme and settings and changes nothing else; C75_export_partial: what __graph__() returns for a graph without edges. Missing: false as stated. TypeError as soon as g has an edge (C75_edges_violated) or has label None (C75_label_violated), node labels are lost (C75_labels_violated), the label gets a line break."
 },
 "C54": {
  "status": "partial",
  "note": "Violated: with an int hash, which Python demands, add_node raises UnboundLocalError (C54_violated). With distinct string hashes the graph is exactly the family when relatives are found in order (C54_strings_partial), and KeyError is raised in every other case (C54_order_violated)."
 },
 "C79": {
  "status": "partial",
  "note": "Proved for all histories in which, besides, no graph with styled nodes is appended, added or made a graph of. Those calls hand the style objects on, without any being given (C79_violated). C79_sessions: what holds in every session."
 },
 "C80": {
  "status": "partial",
  "note": "Proved for all histories without shared style objects. With them (Graph(obj=g) shares them) it is false (C80_violated)."
 },
 "C81": {
  "status": "partial",
  "note": "Proved for graphs without styled nodes; others cannot be copied (C81_violated)."
 },
 "C82": {
  "status": "partial",
  "note": "The setter leaves the dictionaries as they were. For every reachable graph: the node lists and ends do not change, but the node is found under its old name only, its edges and the node itself cannot be deleted (KeyError), and if the new name is taken another node is deleted instead."
 },
 "C83": {
  "status": "partial",
  "note": "For nodes of the graph and an id not in use, Edge(...) equals connect. For every edge, making another one with its ends and id pushes it out, and deleting the old one then deletes the new one; nodes of other graphs are accepted."
 },
 "C84": {
  "status": "partial",
  "note": "Proved: what is saved describes the styled graph in the size asked for, under the path without its extension (os.path.splitext characterised); the result is the same with and without a path; get_svg, get_html and _repr_html_ convert that text. Violated: no format is asked for, so only paths with Graphviz's standard extension are written; a graph painted at random can be shown only once."
 },
 "C85": {
  "status": "partial",
  "note": "Exact condition: a graph whose nodes are its own can be drawn iff its label is not lost (background without location, or empty location). Violated for those labels and for every graph with a node that was removed and added again."
 },
 "C86": {
  "status": "partial",
  "note": "Edge styles: proved for the Graphviz attributes and every setting, and in full once the text colour is set. Violated: no node style can be deep-copied; a deep-copied edge style (also of an edge of a copied graph) can be neither copied nor inverted."
 },
 "C87": {
  "status": "partial",
  "note": "Violated: a NodeStyle as node_style raises TypeError for every graph (C87_node_violated), an EdgeStyle as edge_style makes styling and rendering impossible for every graph with an edge (C87_edge_violated). C87_no_edges_partial: without edges it does nothing; C87_dictionaries: dictionaries are what C71 and C72 describe."
 },
 "C88": {
  "status": "partial",
  "note": "Proved for every style as the constructor makes it (node styles with lighter_fill or with fill and border given; edge styles up to the label style), and for text colours assigned later. Violated: a fill or border colour assigned later is forgotten (C88_setter_violated), and so is lighter_fill=False (C88_darker_violated)."
 },
 "C89": {
  "status": "proved",
  "note": "for every node of every reachable graph; the result is again reachable, so all other theorems apply to it"
 },
 "C90": {
  "status": "partial",
  "note": "violated for every edge of every graph by remove_outward_edge alone, and by append_outward_edge at any other node; proved: both removals together, appending at the own ends, putting the half back"
 },
 "C91": {
  "status": "partial",
  "note": "C91_pensieve and C91_randomly say everything the stylists do with given styles and ratios, C91_defaults that without them they are what stylize runs. lighter_fill is lost (C91_lighter_violated); the other settings are kept (C91_keeps_partial)."
 },
 "C92": {
  "status": "partial",
  "note": "Violated: with a given style a node with one parent has the colour of the given style, turned by its place among its siblings, whatever the colour of its parent (C92_independent, C92_violated)."
 },
 "C93": {
  "status": "partial",
  "note": "Font, text size, opacity and line width are kept (C93_keeps_partial); the label style is always below (C93_label_violated), the arrow sizes are multiplied up from edge to edge (C93_size), a deep-copied edge style raises AttributeError (C93_deepcopy_violated)."
 },
 "C94": {
  "status": "partial",
  "note": "Violated in every graph: each node painted by the default stylist in a graph without styles is a rounded box, on a loop or not (C94_violated). No positive part."
 },
 "C95": {
  "status": "proved",
  "note": ""
 },
 "C96": {
  "status": "partial",
  "note": "Proved for every session and every call but stylize and render; for these in sessions in which no style object is passed on, and without that condition for everything but what is in the styles (C96_objects). Otherwise false: C96_violated."
 },
 "C97": {
  "status": "partial",
  "note": "Proved for sessions in which no node object is given to add_node (and for rendering again and other graphs: no style object passed on), and texts that Graphviz can read. C45 and C85 say what happens otherwise."
 },
 "C98": {
  "status": "partial",
  "note": "False as stated (C98_connect_violated, C98_add_node_violated, C98_append_violated). Proved: exactly when connect and add_node raise for an edge or node that exists, and exactly what has changed by then; that append, wherever it raises, removes nothing and touches no other graph. C05 and C08 have the cases in which nothing changes."
 },
 "C99": {
  "status": "proved",
  "note": "Ancestors, descendants and loops after connect as a function of those before. The queries are taken to return within the recursion limit, which C21 settles."
 },
 "C100": {
  "status": "proved",
  "note": "PathAvoiding and PathWithout are the paths of the old graph that avoid the node, or do not use the edge."
 },
 "C101": {
  "status": "proved",
  "note": "Equality of the stores of nodes, edges and graphs; the object of the removed edge or node itself stays in memory, in no graph."
 },
 "C102": {
  "status": "proved",
  "note": "OneShape is in Spec/Shape.lean. The two graphs may be in different states of different sessions. The recursive queries are taken to return within the recursion limit (C21). absolute_roots and leaves are for graphs whose nodes were not added to a second graph."
 },
 "C103": {
  "status": "proved",
  "note": "C103_from_lists_differ gives the limit for from_lists."
 },
 "C104": {
  "status": "proved",
  "note": "For every sequence of calls from every reachable state: sequences without removing calls extend every graph's lists at the end only and keep reachability and loops; sequences without adding calls leave sublists and add no reachability; sequences with neither leave the structure as it is. C104_calls_grow and C104_calls_shrink say the same for sessions of all public calls (append, +, filter, copy, stylize, render and constructors included)."
 },
 "C105": {
  "status": "proved",
  "note": "The names and edge ids after a sequence of returning building calls are exactly those before plus those given, hence independent of the order; the resulting graphs have one shape (to which C102 applies)."
 },
 "C106": {
  "status": "proved",
  "note": "C106_result says exactly what is left after any sequence of deletions; C106_order that the order and repetitions do not matter, whichever calls raise."
 },
 "C107": {
  "status": "proved",
  "note": "Refinement of every mutating call by name to a ledger without objects; interleaving with calls elsewhere; two graphs with the same ledger; copies."
 },
 "C108": {
  "status": "proved",
  "note": "A simulation between two heaps carries every query over; the two graphs need only show the same texts in the same order. Answers that go through node.graph need the nodes to know their graphs alike, and for copies this is exactly when they agree. Sorting of nodes by index is not covered."
 },
 "C109": {
  "status": "partial",
  "note": "C109_source is the full claim for the text given to Graphviz. For stylize, render, get_svg and get_html the claim is false where style objects are shared (C109_share_violated) or a node was removed and added back (C109_order_violated). C109_draw_partial and C109_draws_partial prove it for graphs whose nodes compare alike and share style objects alike; C109_tidy_partial shows that this is so after every session that passes on no style object and adds no node object back, C109_unstyled_partial for graphs without styles."
 },
 "C110": {
  "status": "partial",
  "note": "Proved for every session of public calls in which no node object is given back to add_node. C110_violated: any node but the last that is removed and added back is listed last but compares smaller."
 },
 "C111": {
  "status": "partial",
  "note": "Proved for all arguments and colours, but for one sentence: the main colour assigned to a new node style is not shown (C111_recolour_violated)."
 },
 "C112": {
  "status": "proved",
  "note": "append, both constructors and whole programs, for all dictionaries and sessions; drawing and appending whole graphs to the graph itself are not among the steps of a program."
 },
 "C113": {
  "status": "proved",
  "note": "Two independent calls raise the same in either order and lead to the same graph up to listing order (C113_commute); in every interleaving of two independent parties each gets what it would get alone (C113_alone), every schedule gives the graph of the serial one (C113_serial), any two schedules agree (C113_schedules). The listing order does depend on the schedule, and calls that are not independent do not commute: both shown by examples."
 },
 "C114": {
  "status": "proved",
  "note": "Styling succeeds only if all settings name nodes and edges of the graph; the exception; removal leaves settings behind and the graph can no longer be drawn. For every reachable graph, stylist, shuffling and argument."
 },
 "C115": {
  "status": "proved",
  "note": "The dictionary in closed form, for graphs and for objects, in terms of an independent depth-first search. The dictionary of get_ancestors of a graph is not given in closed form; C24 says what is known of it."
 },
 "C116": {
  "status": "proved",
  "note": "In terms of an independent walk, which is shown to be deterministic."
 },
 "C117": {
  "status": "proved",
  "note": "In terms of an independent search, which is shown to be deterministic. C30 says how this differs from \"all objects within distance d\"."
 },
 "C118": {
  "status": "proved",
  "note": "C118_styled, C118_drawn. Hypotheses besides Sensible: the nodes belong to the graph (no node was removed and added again), overwriting is allowed."
 },
 "C119": {
  "status": "proved",
  "note": "C119_first, C119_drawn. Hypotheses besides Sensible: the nodes belong to the graph, nothing in it has a style yet."
 },
 "C120": {
  "status": "proved",
  "note": "C120_exact (everything), C120_exclude, C120_include, C120_one, C120_loops, C120_queries; C120_lost shows that the case of several nodes cannot be stronger. Hypothesis: the nodes belong to the graph and the stack limit is at least their number."
 },
 "C121": {
  "status": "partial",
  "note": "For texts that may stand in quotes (Drawable) and nodes that belong to their graph. Names with quotes can forge a source: C121_violated."
 },
 "C122": {
  "status": "partial",
  "note": "For nodes that are shown under their names (no label of their own, no line break, no star at the end) and belong to their graph; otherwise C122_violated, C122_label_violated."
 },
 "C123": {
  "status": "proved",
  "note": "Exact: returns iff every find of the depth-first search is fewer than lim levels down, RecursionError otherwise. A frame of the model is one recursive call; the frames of helper calls are not counted."
 },
 "C124": {
  "status": "proved",
  "note": "The calls return, except that a styled node makes filter raise (C34_violated); the hypotheses say that they returned. Names in order, and which name is joined to which; the attributes kept are in C34."
 },
 "C125": {
  "status": "proved",
  "note": "the order is characterised exactly; C125_gap shows a text whose order is not kept"
 },
 "C126": {
  "status": "proved",
  "note": "get_node_name, which never looks a node object up, is described by C126_node_name"
 },
 "C127": {
  "status": "proved",
  "note": "For graphs whose nodes belong to them (C12 says when): get_tree_str of a node and of a graph, exact stack requirement, order and number of the lines."
 },
 "C128": {
  "status": "proved",
  "note": "In all states. Needs no hypothesis but the order of the two stack sizes."
 },
 "C129": {
  "status": "proved",
  "note": "C129_reindent: the calls are equal as state transformers. C129_detected: the same without the unit, for outlines whose depths are in order. C129_recover: the levels can be read off the graph."
 },
 "C130": {
  "status": "partial",
  "note": "The property is false: C130_order_violated, C130_brackets_violated (values), C43_edges_violated (graphs with edges cannot be added). C130_names_partial proves it for the names, C130_disjoint_partial for the values of graphs with no name in common, and C130_values gives the value at every name of every sum exactly."
 },
 "C131": {
  "status": "partial",
  "note": "For nodes everything, in all states and for ever (C131_node); edges of a graph print their ends (C131_edge), the same at all times (C131_edge_lasts), and are told apart if the names of their starts do not contain -Node: (C131_ends_partial). The rest is false: C131_parallel_violated, C131_dash_violated, C131_removed_violated. That printing lasts is also proved for whole sessions (`C131_session`)."
 },
 "C132": {
  "status": "proved",
  "note": "For all histories of the calls of `Op` and, with the same statements, for all sessions (`Call`: dictionaries, sums, stylize and render included). Assigning node.id or edge.id directly (renaming, C82) is not among them."
 }
}