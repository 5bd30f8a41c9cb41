{
 "claims": [
  {
   "property": "C01",
   "status": "proved",
   "theorems": [
    "Verif.C01_outward",
    "Verif.C01_inward",
    "Verif.C01_registered"
   ],
   "note": "For every reachable heap: an edge is listed as outward at its start iff it is listed as inward at its end, and both nodes are registered in the edge's graph."
  },
  {
   "property": "C02",
   "status": "proved",
   "theorems": [
    "Verif.C02_refines",
    "Verif.C02_total",
    "Verif.C02_nodup"
   ],
   "note": "Refinement: after any history the observable nodes and edges of every graph are those of the abstract multigraph driven by the same calls and results; failing calls change nothing there; names and edge ids are unique."
  },
  {
   "property": "C03",
   "status": "proved",
   "theorems": [
    "Verif.C03_never_weird",
    "Verif.C03_connect_succeeds"
   ],
   "note": "connect never reports an inconsistency, and succeeds under the stated preconditions with an edge of the requested id listed at both ends."
  },
  {
   "property": "C04",
   "status": "proved",
   "theorems": [
    "Verif.C04_connect_again",
    "Verif.C04_identity",
    "Verif.C04_same_edge"
   ],
   "note": ""
  },
  {
   "property": "C05",
   "status": "proved",
   "theorems": [
    "Verif.C05_unknown_end",
    "Verif.C05_unknown",
    "Verif.C05_exists",
    "Verif.C05_bad_style"
   ],
   "note": "Unknown end point (C05_unknown, C05_unknown_end), policy 'error' and rejected style on a new edge all leave the whole heap unchanged."
  },
  {
   "property": "C06",
   "status": "proved",
   "theorems": [
    "Verif.C06_remove_node"
   ],
   "note": ""
  },
  {
   "property": "C07",
   "status": "proved",
   "theorems": [
    "Verif.C07_disconnect",
    "Verif.C07_remove_self",
    "Verif.C07_dead",
    "Verif.C07_twice"
   ],
   "note": "Covers disconnect and remove_self on live edges, dead edges, and calling either twice."
  },
  {
   "property": "C08",
   "status": "proved",
   "theorems": [
    "Verif.C08_new",
    "Verif.C08_existing",
    "Verif.C08_error",
    "Verif.C08_rejected"
   ],
   "note": "New name, existing name, policy 'error', and rejected style."
  },
  {
   "property": "C09",
   "status": "proved",
   "theorems": [
    "Verif.C09_increasing",
    "Verif.C09_total_order",
    "Verif.C09_eq_identity"
   ],
   "note": ""
  },
  {
   "property": "C10",
   "status": "proved",
   "theorems": [
    "Verif.C10_isolated"
   ],
   "note": "For every call that is on one graph; adding the same detached node object to two graphs is excluded from histories and treated in C56."
  },
  {
   "property": "C11",
   "status": "proved",
   "theorems": [
    "Verif.C11_edges",
    "Verif.C11_edges_dict",
    "Verif.C11_degrees"
   ],
   "note": ""
  },
  {
   "property": "C12",
   "status": "partial",
   "theorems": [
    "Verif.C12_session_partial",
    "Verif.C12_known_partial",
    "Verif.C12_owned_partial",
    "Verif.C12_either",
    "Verif.C12_readded_has_no_graph",
    "Verif.C12_readd_partial"
   ],
   "note": "False as stated: C12_readded_has_no_graph shows for every state that a re-added node has no graph and its own methods raise. Proved: the graph-level behaviour after remove and re-add; that every node knows its graph in every history in which no node object is given to add_node (C12_owned_partial, C12_session_partial), and in any history knows it or none (C12_either)."
  },
  {
   "property": "C13",
   "status": "partial",
   "theorems": [
    "Verif.C13_name_partial",
    "Verif.C13_node_raises"
   ],
   "note": "Proved for names. For Node objects the claim is false: C13_node_raises shows 'node in graph' raising TypeError."
  },
  {
   "property": "C14",
   "status": "proved",
   "theorems": [
    "Verif.C14_node",
    "Verif.C14_edge",
    "Verif.C14_attempt",
    "Verif.C14_session"
   ],
   "note": "Also for whole sessions, with sums, append, stylize and render among the calls (`C14_session`)."
  },
  {
   "property": "C15",
   "status": "proved",
   "theorems": [
    "Verif.C15_node",
    "Verif.C15_edge",
    "Verif.C15_attempt",
    "Verif.C15_allowed",
    "Verif.C15_session"
   ],
   "note": "Also for whole sessions, with stylize, render and append among the calls (`C15_session`)."
  },
  {
   "property": "C16",
   "status": "partial",
   "theorems": [
    "Verif.C16_disconnected",
    "Verif.C16_removed",
    "Verif.C16_nodes",
    "Verif.C16_hash",
    "Verif.C16_edges_partial",
    "Verif.C16_edges_incoherent",
    "Verif.C16_edges_exact"
   ],
   "note": "Proved for nodes, and for == and hash on edges. != on edges compares the extra ids only: C16_edges_exact says for which pairs of edges neither == nor != holds (different edges with the same extra id), C16_edges_incoherent is a reachable instance. C16_disconnected and C16_removed say what comparing a deleted edge does."
  },
  {
   "property": "C17",
   "status": "partial",
   "theorems": [
    "Verif.C17_strict_not_enforced",
    "Verif.C17_parallel_violated",
    "Verif.C17_no_parallel_partial"
   ],
   "note": "False as stated, in every graph: C17_parallel_violated adds a second edge beside any edge; C17_strict_not_enforced is an instance. Proved: without explicit edge ids there are no parallel edges in any graph."
  },
  {
   "property": "C18",
   "status": "proved",
   "theorems": [
    "Verif.C18_ancestors",
    "Verif.C18_node_ancestors"
   ],
   "note": ""
  },
  {
   "property": "C19",
   "status": "proved",
   "theorems": [
    "Verif.C19_descendants",
    "Verif.C19_node_descendants"
   ],
   "note": "Reachability plus depth-first preorder (inductive spec Pre)."
  },
  {
   "property": "C20",
   "status": "proved",
   "theorems": [
    "Verif.C20_dual",
    "Verif.C20_count"
   ],
   "note": ""
  },
  {
   "property": "C21",
   "status": "proved",
   "theorems": [
    "Verif.C21_terminates",
    "Verif.C21_unknown",
    "Verif.C21_node"
   ],
   "note": "Stack frames = number of nodes suffice; no node entered twice."
  },
  {
   "property": "C22",
   "status": "proved",
   "theorems": [
    "Verif.C22_in_loop",
    "Verif.C22_in_loop_total",
    "Verif.C22_loop_nodes",
    "Verif.C22_readme"
   ],
   "note": "Includes the README definition with the missing self-loop case made explicit. loop_nodes assumes every node's graph attribute is set (see C12)."
  },
  {
   "property": "C23",
   "status": "proved",
   "theorems": [
    "Verif.C23_same_loop",
    "Verif.C23_same_loop_total",
    "Verif.C23_equivalence",
    "Verif.C23_edge"
   ],
   "note": ""
  },
  {
   "property": "C24",
   "status": "partial",
   "theorems": [
    "Verif.C24_lost_ancestor",
    "Verif.C24_lost_child",
    "Verif.C24_lost_parent",
    "Verif.C24_ancestors_partial",
    "Verif.C24_descendants_partial",
    "Verif.C24_ancestors_one_partial",
    "Verif.C24_descendants_one_partial",
    "Verif.C24_ancestors_violated",
    "Verif.C24_descendants_violated"
   ],
   "note": "Completeness is false in every graph with two relatives at the same distance that are not parents (children) of one node: C24_ancestors_violated, C24_descendants_violated, because an entry lists the neighbours of a single node only (C24_ancestors_one_partial, C24_descendants_one_partial); C24_lost_ancestor, C24_lost_child, C24_lost_parent are instances. Proved: soundness of every listed distance, and completeness for chains."
  },
  {
   "property": "C25",
   "status": "proved",
   "theorems": [
    "Verif.C25_roots"
   ],
   "note": "Loop invariant of roots: coverage and antichain; in acyclic graphs the roots are the nodes without parents."
  },
  {
   "property": "C26",
   "status": "proved",
   "theorems": [
    "Verif.C26_exact",
    "Verif.C26_raises",
    "Verif.C26_acyclic"
   ],
   "note": "Exact where every node's graph attribute is set (see C12); C26_raises: they raise AttributeError exactly where one is not."
  },
  {
   "property": "C27",
   "status": "proved",
   "theorems": [
    "Verif.C27_counts",
    "Verif.C27_exact",
    "Verif.C27_symmetric",
    "Verif.C27_node"
   ],
   "note": "Node.siblings/co_parents equal the graph methods as lists when every node's graph attribute is set (see C12)."
  },
  {
   "property": "C28",
   "status": "proved",
   "theorems": [
    "Verif.C28_tree"
   ],
   "note": "The string is the drawing (separate specification Spec/Outline.lean) of a forest with the stated properties. Assumes every node's graph attribute is set (see C12)."
  },
  {
   "property": "C29",
   "status": "proved",
   "theorems": [
    "Verif.C29_reachability",
    "Verif.C29_any_stack"
   ],
   "note": ""
  },
  {
   "property": "C30",
   "status": "partial",
   "theorems": [
    "Verif.C30_missed",
    "Verif.C30_limited_partial",
    "Verif.C30_two_partial",
    "Verif.C30_distances_partial",
    "Verif.C30_one_partial"
   ],
   "note": "False at max_depth=3: C30_missed. Proved for every object graph: termination, soundness, exactness up to limit 2, completeness up to distance 2 for every limit, exactness for graded object graphs (e.g. trees)."
  },
  {
   "property": "C31",
   "status": "proved",
   "theorems": [
    "Verif.C31_copy",
    "Verif.C31_similar"
   ],
   "note": "For graphs in which no node has a style (as the property says); is_similar_to additionally needs the edges to have no style, since edge styles are compared by identity. copy.deepcopy is modelled as one memoised pass over the nodes and edges of the graph."
  },
  {
   "property": "C32",
   "status": "proved",
   "theorems": [
    "Verif.C32_original",
    "Verif.C32_disjoint",
    "Verif.C32_independent"
   ],
   "note": ""
  },
  {
   "property": "C33",
   "status": "partial",
   "theorems": [
    "Verif.C33_unstyled_partial",
    "Verif.C33_violated",
    "Verif.C33_violated_reachable",
    "Verif.C33_settings_lost"
   ],
   "note": "Violated: copy raises KeyError as soon as one node has a style (C33_violated, C33_violated_reachable), and a copy loses its settings (C33_settings_lost). C33_unstyled_partial: copy succeeds for every reachable graph without node styles. Rendering the copy is C62."
  },
  {
   "property": "C34",
   "status": "partial",
   "theorems": [
    "Verif.C34_include_partial",
    "Verif.C34_exclude_partial",
    "Verif.C34_unknown",
    "Verif.C34_violated"
   ],
   "note": "Proved for graphs without node styles whose nodes know their graph (C34_include_partial, C34_exclude_partial, C34_unknown). As stated it is violated: a styled node makes filter raise (C34_violated)."
  },
  {
   "property": "C35",
   "status": "partial",
   "theorems": [
    "Verif.C35_to_partial",
    "Verif.C35_from_partial",
    "Verif.C35_violated",
    "Verif.C35_violated_witness"
   ],
   "note": "As stated it is violated: direction has no effect at all (C35_violated, C35_violated_witness). C35_to_partial and C35_from_partial give the cases in which the outcome is nevertheless the documented one."
  },
  {
   "property": "C36",
   "status": "proved",
   "theorems": [
    "Verif.C36_from_lists"
   ],
   "note": ""
  },
  {
   "property": "C37",
   "status": "proved",
   "theorems": [
    "Verif.C37_ids",
    "Verif.C37_from_dict",
    "Verif.C37_from_names",
    "Verif.C37_refused",
    "Verif.C37_unusable",
    "Verif.C37_in_order"
   ],
   "note": ""
  },
  {
   "property": "C38",
   "status": "proved",
   "theorems": [
    "Verif.C38_append_twice",
    "Verif.C38_reachable"
   ],
   "note": "The second append may raise (a style given twice); no structure changes in that case either."
  },
  {
   "property": "C39",
   "status": "partial",
   "theorems": [
    "Verif.C39_exact",
    "Verif.C39_detected_exact",
    "Verif.C39_violated",
    "Verif.C39_given_partial",
    "Verif.C39_detected_partial"
   ],
   "note": "The parser is proved to return, for every sequence of lines each of which is written with the given (or detected) indentation unit, one item per line with the right level, content and parent when the unit is a single character, when no content contains the unit, or when it is four spaces. The property as stated is violated: a longer unit that occurs again inside a line's text is cut out of the text (C39_violated)."
  },
  {
   "property": "C40",
   "status": "proved",
   "theorems": [
    "Verif.C40_parent",
    "Verif.C40_earlier",
    "Verif.C40_all_lines",
    "Verif.C40_too_deep",
    "Verif.C40_text",
    "Verif.C40_text_raises",
    "Verif.C40_tree"
   ],
   "note": ""
  },
  {
   "property": "C41",
   "status": "proved",
   "theorems": [
    "Verif.C41_exact",
    "Verif.C41_acyclic",
    "Verif.C41_count",
    "Verif.C41_none",
    "Verif.C41_all"
   ],
   "note": "Draws are any sequence of rationals in [0,1); probabilities are rationals."
  },
  {
   "property": "C42",
   "status": "partial",
   "theorems": [
    "Verif.C42_transitive",
    "Verif.C42_exact",
    "Verif.C42_reflexive",
    "Verif.C42_symmetric",
    "Verif.C42_raises_partial",
    "Verif.C42_violated",
    "Verif.C42_raises_exact",
    "Verif.C42_names_violated"
   ],
   "note": "The meaning of a True answer, reflexivity and symmetry are proved. Never raising is violated: C42_names_violated for every two graphs of one size with no name in common, and C42_raises_exact says exactly when KeyError is raised instead of False."
  },
  {
   "property": "C43",
   "status": "partial",
   "theorems": [
    "Verif.C43_edges_violated",
    "Verif.C43_object_partial",
    "Verif.C43_parallel_partial",
    "Verif.C43_default_values",
    "Verif.C43_union_partial",
    "Verif.C43_values_violated",
    "Verif.C43_labels_violated",
    "Verif.C43_operand_violated"
   ],
   "note": "C43_union_partial: for two graphs without edges the sum has the union of the nodes, values of nodes of one graph are kept, shared values come from the right graph twice, no graph is touched; C43_object_partial: right operand any object with __graph__(), edges included; C43_parallel_partial: also with several entries for the same edge; C43_default_values: how values are added. Missing: false as stated. + raises AttributeError as soon as a graph has an edge (C43_edges_violated), shared values are not summed (C43_values_violated), labels are lost (C43_labels_violated), the left operand's settings change (C43_operand_violated)."
  },
  {
   "property": "C44",
   "status": "partial",
   "theorems": [
    "Verif.C44_source_partial",
    "Verif.C44_statements_partial",
    "Verif.C44_violated"
   ],
   "note": "Proved for graphs whose names, labels, tooltips and attributes may stand between quotes: the source is a graph of the DOT language (Spec/Dot.lean) and says exactly what pictureOf says. False for other names: a node named a\" -> \"b turns into an edge statement (C44_violated)."
  },
  {
   "property": "C45",
   "status": "partial",
   "theorems": [
    "Verif.C45_label",
    "Verif.C45_no_backslash",
    "Verif.C45_name",
    "Verif.C45_edge_label",
    "Verif.C45_violated"
   ],
   "note": "Exact characterisation of the strings that are quoted safely: labels iff runs of backslashes before quotes, line ends and the end are even; names and edge labels, which are not escaped, moreover iff there is no quote. The label a\\ makes the source unreadable (C45_violated)."
  },
  {
   "property": "C46",
   "status": "proved",
   "theorems": [
    "Verif.C46_round_robin",
    "Verif.C46_even",
    "Verif.C46_empty"
   ],
   "note": "All inputs; the order and number of colours handed out and the balance of the use counts."
  },
  {
   "property": "C47",
   "status": "proved",
   "theorems": [
    "Verif.C47_spread",
    "Verif.C47_select"
   ],
   "note": "The fractions are modelled as exact rationals; Python's floats represent every k/2^n exactly up to 2^-1074."
  },
  {
   "property": "C48",
   "status": "partial",
   "theorems": [
    "Verif.C48_succeeds_iff",
    "Verif.C48_all_styled_partial",
    "Verif.C48_no_colours",
    "Verif.C48_violated"
   ],
   "note": "C48_succeeds_iff: with colours in the scheme and edge values that can be multiplied, the stylist succeeds exactly when no unstyled edge starts at an unstyled node on a cycle that has a parent off all cycles, and otherwise raises AttributeError. C48_all_styled_partial: without such nodes everything gets a style and earlier styles are kept. C48_violated: a -> b -> c -> b raises AttributeError, so the property as stated is false. Colours come from an arbitrary type with arbitrary operations."
  },
  {
   "property": "C49",
   "status": "partial",
   "theorems": [
    "Verif.C49_with_permission_partial",
    "Verif.C49_without_permission",
    "Verif.C49_render_partial",
    "Verif.C49_violated",
    "Verif.C49_pensieve"
   ],
   "note": "Proved for every stylist and setting with style_overwrite_allowed=True (C49_with_permission_partial, C49_render_partial: rendering again returns the same source). Without it, C49_without_permission says exactly when the second call succeeds and that it raises RuntimeError otherwise; C49_violated is a concrete case. Assumes that no two nodes share a style object."
  },
  {
   "property": "C50",
   "status": "partial",
   "theorems": [
    "Verif.C50_exact",
    "Verif.C50_compound",
    "Verif.C50_violated",
    "Verif.C50_own_partial"
   ],
   "note": "The property is false: C50_violated (the sizes are carried over from edge to edge). C50_compound gives the size of every arrow exactly; C50_exact says exactly which arrows get the stated size; C50_own_partial proves it for edges before which no edge with a value other than 1 is styled."
  },
  {
   "property": "C51",
   "status": "proved",
   "theorems": [
    "Verif.C51_terminates",
    "Verif.C51_succeeds"
   ],
   "note": "C51_terminates, C51_succeeds: with as many frames as the graph has nodes inherit_style returns the inherited style (Spec/Paint.lean, Tint), or raises AttributeError because a node it inherits from has no style; it never runs out of frames and never indexes an empty list."
  },
  {
   "property": "C52",
   "status": "proved",
   "theorems": [
    "Verif.C52_rank",
    "Verif.C52_distinct"
   ],
   "note": ""
  },
  {
   "property": "C53",
   "status": "partial",
   "theorems": [
    "Verif.C53_node_copy",
    "Verif.C53_edge_copy_partial",
    "Verif.C53_node_invert_partial",
    "Verif.C53_edge_invert_partial",
    "Verif.C53_node_invert_violated",
    "Verif.C53_edge_copy_violated",
    "Verif.C53_edge_copy_exact",
    "Verif.C53_node_invert_exact",
    "Verif.C53_edge_invert_exact"
   ],
   "note": "Node style copies are proved equal. Edge style copies are violated (C53_edge_copy_violated), C53_edge_copy_exact says exactly when they are equal; inverting twice is the identity only under stated conditions (C53_node_invert_violated), C53_node_invert_exact and C53_edge_invert_exact say exactly when, for every history of the style."
  },
  {
   "property": "C54",
   "status": "partial",
   "theorems": [
    "Verif.C54_violated",
    "Verif.C54_strings_partial",
    "Verif.C54_order_violated"
   ],
   "note": "Violated: with an int hash, which Python demands, add_node raises UnboundLocalError (C54_violated). With distinct string hashes the graph is exactly the family when relatives are found in order (C54_strings_partial), and KeyError is raised in every other case (C54_order_violated)."
  },
  {
   "property": "C55",
   "status": "partial",
   "theorems": [
    "Verif.C55_clobbers",
    "Verif.C55_taken_violated",
    "Verif.C55_new_name_partial"
   ],
   "note": "False for every taken name in every graph: C55_taken_violated; C55_clobbers is an instance. Proved for names that are not taken."
  },
  {
   "property": "C56",
   "status": "partial",
   "theorems": [
    "Verif.C56_shared_node",
    "Verif.C56_one_graph_partial",
    "Verif.C56_violated"
   ],
   "note": "False, in every reachable state: C56_violated takes any node of any graph, removes it, adds it back and adds it to any other graph without a node of that name; all calls succeed, the node is in both graphs, and a later connect in the first gives it a child in the second that the second does not have. C56_shared_node is one instance. Proved for all histories without the one call that re-adds a detached node to a second graph."
  },
  {
   "property": "C57",
   "status": "proved",
   "theorems": [
    "Verif.C57_get_edges",
    "Verif.C57_children",
    "Verif.C57_parents",
    "Verif.C57_node",
    "Verif.C57_unknown",
    "Verif.C57_name",
    "Verif.C57_outward_by_id",
    "Verif.C57_inward_by_id"
   ],
   "note": ""
  },
  {
   "property": "C58",
   "status": "proved",
   "theorems": [
    "Verif.C58_node",
    "Verif.C58_edge",
    "Verif.C58_initial",
    "Verif.C58_initial_edge"
   ],
   "note": ""
  },
  {
   "property": "C59",
   "status": "proved",
   "theorems": [
    "Verif.C59_options",
    "Verif.C59_session"
   ],
   "note": "Quantifies over the calls in the Op type; append, which overwrites strict and ordering from its dictionary, is treated under C37. For sessions: style_overwrite_allowed never changes (`C59_session`)."
  },
  {
   "property": "C60",
   "status": "proved",
   "theorems": [
    "Verif.C60_label",
    "Verif.C60_set"
   ],
   "note": "For labels that are None or strings."
  },
  {
   "property": "C61",
   "status": "partial",
   "theorems": [
    "Verif.C61_violated",
    "Verif.C61_number_partial"
   ],
   "note": "Violated: the label is \"line i\" and the text appears nowhere (C61_violated); the line numbers are shown."
  },
  {
   "property": "C62",
   "status": "partial",
   "theorems": [
    "Verif.C62_violated",
    "Verif.C62_violated_filter",
    "Verif.C62_structure_partial"
   ],
   "note": "Every copy and every filtered graph lacks the display attributes: stylize, render and the Graphviz source raise AttributeError (C62_violated, C62_violated_filter). The structure is copied (C62_structure_partial)."
  },
  {
   "property": "C63",
   "status": "proved",
   "theorems": [
    "Verif.C63_round_robin"
   ],
   "note": ""
  },
  {
   "property": "C64",
   "status": "proved",
   "theorems": [
    "Verif.C64_inherits"
   ],
   "note": "Stated for graphs on which C48_all_styled_partial applies."
  },
  {
   "property": "C65",
   "status": "proved",
   "theorems": [
    "Verif.C65_settings"
   ],
   "note": "For graphs whose texts may stand between quotes (Drawable)."
  },
  {
   "property": "C66",
   "status": "partial",
   "theorems": [
    "Verif.C66_violated"
   ],
   "note": "False for every graph that can be drawn: ordering=out is written exactly if ordering is False."
  },
  {
   "property": "C67",
   "status": "proved",
   "theorems": [
    "Verif.C67_only_styles",
    "Verif.C67_same_graph"
   ],
   "note": "Whatever the settings and however stylize ends."
  },
  {
   "property": "C68",
   "status": "proved",
   "theorems": [
    "Verif.C68_render"
   ],
   "note": "The texts of the styled graph must be quotable (Drawable), as in C44."
  },
  {
   "property": "C69",
   "status": "partial",
   "theorems": [
    "Verif.C69_ignored_violated",
    "Verif.C69_no_size_violated"
   ],
   "note": "Violated: render without a path ignores height and width (C69_ignored_violated), and the source sets no size (C69_no_size_violated)."
  },
  {
   "property": "C70",
   "status": "proved",
   "theorems": [
    "Verif.C70_colours_need_permission"
   ],
   "note": "From any reachable state in which no two nodes share a style object."
  },
  {
   "property": "C71",
   "status": "proved",
   "theorems": [
    "Verif.C71_nodes",
    "Verif.C71_edges"
   ],
   "note": "nodes and edges; all three levels of settings. Settings are dictionaries (each key once); no style object is shared between nodes."
  },
  {
   "property": "C72",
   "status": "partial",
   "theorems": [
    "Verif.C72_edges_alike",
    "Verif.C72_nodes_alike_partial",
    "Verif.C72_untouched",
    "Verif.C72_violated"
   ],
   "note": "edges: all stylists; nodes: all stylists but stylize_randomly, for which C72_violated shows a counterexample (fill colours stay random)."
  },
  {
   "property": "C73",
   "status": "partial",
   "theorems": [
    "Verif.C73_circle_partial",
    "Verif.C73_empty_violated",
    "Verif.C73_violated"
   ],
   "note": "circles for short names proved; violated for longer names (shape stays auto, C73_violated) and for graphs without nodes (ValueError, C73_empty_violated)."
  },
  {
   "property": "C74",
   "status": "proved",
   "theorems": [
    "Verif.C74_round_robin",
    "Verif.C74_balanced"
   ],
   "note": "every shuffle that permutes the nodes."
  },
  {
   "property": "C75",
   "status": "partial",
   "theorems": [
    "Verif.C75_export_partial",
    "Verif.C75_edges_violated",
    "Verif.C75_label_violated",
    "Verif.C75_graph_partial",
    "Verif.C75_labels_violated"
   ],
   "note": "C75_graph_partial: for a graph without edges and with a label, Graph(obj=g) has its options, names, values, colour scheme and settings and changes nothing else; C75_export_partial: what __graph__() returns for a graph without edges. Missing: false as stated. TypeError as soon as g has an edge (C75_edges_violated) or has label None (C75_label_violated), node labels are lost (C75_labels_violated), the label gets a line break."
  },
  {
   "property": "C76",
   "status": "partial",
   "theorems": [
    "Verif.C76_append_partial",
    "Verif.C76_structure",
    "Verif.C76_succeeds",
    "Verif.C76_label_violated",
    "Verif.C76_edge_styles_violated"
   ],
   "note": "C76_append_partial: after append of any dictionary whose edge settings name edges it lists, every display attribute is the one stated (Dicts.after); C76_structure and C76_succeeds: nodes, edges and success. Missing: false as stated for the label, which gets a line break in front (C76_label_violated), and for edge_styles, which end up among the colours (C76_edge_styles_violated)."
  },
  {
   "property": "C77",
   "status": "partial",
   "theorems": [
    "Verif.C77_construct_partial",
    "Verif.C77_display",
    "Verif.C77_structure",
    "Verif.C77_succeeds",
    "Verif.C77_violated"
   ],
   "note": "C77_construct_partial, C77_display, C77_structure, C77_succeeds: scheme, stylist, options, nodes and edges of Graph(obj=D), other graphs unchanged. Missing: false as stated for the stylist, because the default argument is not None (C77_violated)."
  },
  {
   "property": "C78",
   "status": "proved",
   "theorems": [
    "Verif.C78_node",
    "Verif.C78_edge",
    "Verif.C78_unknown_key",
    "Verif.C78_add_node",
    "Verif.C78_connect",
    "Verif.C78_set_style",
    "Verif.C78_refused",
    "Verif.C78_texts"
   ],
   "note": "Every style made from a dictionary is the one described (NodeStyle.Described, EdgeStyle.Described), also when given to add_node or connect; refused iff a key is unknown."
  },
  {
   "property": "C79",
   "status": "partial",
   "theorems": [
    "Verif.C79_sessions",
    "Verif.C79_private_partial",
    "Verif.C79_violated"
   ],
   "note": "Proved for all histories in which, besides, no graph with styled nodes is appended, added or made a graph of. Those calls hand the style objects on, without any being given (C79_violated). C79_sessions: what holds in every session."
  },
  {
   "property": "C80",
   "status": "partial",
   "theorems": [
    "Verif.C80_stylize_partial",
    "Verif.C80_picture_partial",
    "Verif.C80_violated"
   ],
   "note": "Proved for all histories without shared style objects. With them (Graph(obj=g) shares them) it is false (C80_violated)."
  },
  {
   "property": "C81",
   "status": "partial",
   "theorems": [
    "Verif.C81_copy_partial",
    "Verif.C81_violated"
   ],
   "note": "Proved for graphs without styled nodes; others cannot be copied (C81_violated)."
  },
  {
   "property": "C82",
   "status": "partial",
   "theorems": [
    "Verif.C82_structure_partial",
    "Verif.C82_lookup_violated",
    "Verif.C82_edges_violated",
    "Verif.C82_remove_violated",
    "Verif.C82_taken_violated",
    "Verif.C82_edge_id_violated"
   ],
   "note": "The setter leaves the dictionaries as they were. For every reachable graph: the node lists and ends do not change, but the node is found under its old name only, its edges and the node itself cannot be deleted (KeyError), and if the new name is taken another node is deleted instead."
  },
  {
   "property": "C83",
   "status": "partial",
   "theorems": [
    "Verif.C83_like_connect_partial",
    "Verif.C83_taken_violated",
    "Verif.C83_foreign_violated"
   ],
   "note": "For nodes of the graph and an id not in use, Edge(...) equals connect. For every edge, making another one with its ends and id pushes it out, and deleting the old one then deletes the new one; nodes of other graphs are accepted."
  },
  {
   "property": "C84",
   "status": "partial",
   "theorems": [
    "Verif.C84_path",
    "Verif.C84_no_path",
    "Verif.C84_returned",
    "Verif.C84_saved_partial",
    "Verif.C84_format_violated",
    "Verif.C84_svg",
    "Verif.C84_svg_text",
    "Verif.C84_twice_violated"
   ],
   "note": "Proved: what is saved describes the styled graph in the size asked for, under the path without its extension (os.path.splitext characterised); the result is the same with and without a path; get_svg, get_html and _repr_html_ convert that text. Violated: no format is asked for, so only paths with Graphviz's standard extension are written; a graph painted at random can be shown only once."
  },
  {
   "property": "C85",
   "status": "partial",
   "theorems": [
    "Verif.C85_draws_partial",
    "Verif.C85_label_violated",
    "Verif.C85_readded_violated"
   ],
   "note": "Exact condition: a graph whose nodes are its own can be drawn iff its label is not lost (background without location, or empty location). Violated for those labels and for every graph with a node that was removed and added again."
  },
  {
   "property": "C86",
   "status": "partial",
   "theorems": [
    "Verif.C86_node_violated",
    "Verif.C86_edge_partial",
    "Verif.C86_edge_violated",
    "Verif.C86_original",
    "Verif.C86_copy_violated"
   ],
   "note": "Edge styles: proved for the Graphviz attributes and every setting, and in full once the text colour is set. Violated: no node style can be deep-copied; a deep-copied edge style (also of an edge of a copied graph) can be neither copied nor inverted."
  },
  {
   "property": "C87",
   "status": "partial",
   "theorems": [
    "Verif.C87_dictionaries",
    "Verif.C87_node_violated",
    "Verif.C87_edge_violated",
    "Verif.C87_no_edges_partial"
   ],
   "note": "Violated: a NodeStyle as node_style raises TypeError for every graph (C87_node_violated), an EdgeStyle as edge_style makes styling and rendering impossible for every graph with an edge (C87_edge_violated). C87_no_edges_partial: without edges it does nothing; C87_dictionaries: dictionaries are what C71 and C72 describe."
  },
  {
   "property": "C88",
   "status": "partial",
   "theorems": [
    "Verif.C88_node_partial",
    "Verif.C88_edge_partial",
    "Verif.C88_setter_violated",
    "Verif.C88_text",
    "Verif.C88_darker_violated"
   ],
   "note": "Proved for every style as the constructor makes it (node styles with lighter_fill or with fill and border given; edge styles up to the label style), and for text colours assigned later. Violated: a fill or border colour assigned later is forgotten (C88_setter_violated), and so is lighter_fill=False (C88_darker_violated)."
  },
  {
   "property": "C89",
   "status": "proved",
   "theorems": [
    "Verif.C89_remove_edges"
   ],
   "note": "for every node of every reachable graph; the result is again reachable, so all other theorems apply to it"
  },
  {
   "property": "C90",
   "status": "partial",
   "theorems": [
    "Verif.C90_remove_half_violated",
    "Verif.C90_both_partial",
    "Verif.C90_append_partial",
    "Verif.C90_append_violated"
   ],
   "note": "violated for every edge of every graph by remove_outward_edge alone, and by append_outward_edge at any other node; proved: both removals together, appending at the own ends, putting the half back"
  },
  {
   "property": "C91",
   "status": "partial",
   "theorems": [
    "Verif.C91_defaults",
    "Verif.C91_pensieve",
    "Verif.C91_randomly",
    "Verif.C91_keeps_partial",
    "Verif.C91_lighter_violated"
   ],
   "note": "C91_pensieve and C91_randomly say everything the stylists do with given styles and ratios, C91_defaults that without them they are what stylize runs. lighter_fill is lost (C91_lighter_violated); the other settings are kept (C91_keeps_partial)."
  },
  {
   "property": "C92",
   "status": "partial",
   "theorems": [
    "Verif.C92_independent",
    "Verif.C92_violated"
   ],
   "note": "Violated: with a given style a node with one parent has the colour of the given style, turned by its place among its siblings, whatever the colour of its parent (C92_independent, C92_violated)."
  },
  {
   "property": "C93",
   "status": "partial",
   "theorems": [
    "Verif.C93_keeps_partial",
    "Verif.C93_label_violated",
    "Verif.C93_size",
    "Verif.C93_deepcopy_violated"
   ],
   "note": "Font, text size, opacity and line width are kept (C93_keeps_partial); the label style is always below (C93_label_violated), the arrow sizes are multiplied up from edge to edge (C93_size), a deep-copied edge style raises AttributeError (C93_deepcopy_violated)."
  },
  {
   "property": "C94",
   "status": "partial",
   "theorems": [
    "Verif.C94_violated"
   ],
   "note": "Violated in every graph: each node painted by the default stylist in a graph without styles is a rounded box, on a loop or not (C94_violated). No positive part."
  },
  {
   "property": "C95",
   "status": "proved",
   "theorems": [
    "Verif.C95_has",
    "Verif.C95_nodes",
    "Verif.C95_edges",
    "Verif.C95_painted"
   ],
   "note": ""
  },
  {
   "property": "C96",
   "status": "partial",
   "theorems": [
    "Verif.C96_call",
    "Verif.C96_objects",
    "Verif.C96_private_partial",
    "Verif.C96_calls_partial",
    "Verif.C96_violated"
   ],
   "note": "Proved for every session and every call but stylize and render; for these in sessions in which no style object is passed on, and without that condition for everything but what is in the styles (C96_objects). Otherwise false: C96_violated."
  },
  {
   "property": "C97",
   "status": "partial",
   "theorems": [
    "Verif.C97_hypotheses",
    "Verif.C97_shows_partial",
    "Verif.C97_again_partial",
    "Verif.C97_lasting_partial"
   ],
   "note": "Proved for sessions in which no node object is given to add_node (and for rendering again and other graphs: no style object passed on), and texts that Graphviz can read. C45 and C85 say what happens otherwise."
  },
  {
   "property": "C98",
   "status": "partial",
   "theorems": [
    "Verif.C98_connect_partial",
    "Verif.C98_add_node_partial",
    "Verif.C98_connect_violated",
    "Verif.C98_add_node_violated",
    "Verif.C98_append_partial",
    "Verif.C98_append_violated"
   ],
   "note": "False as stated (C98_connect_violated, C98_add_node_violated, C98_append_violated). Proved: exactly when connect and add_node raise for an edge or node that exists, and exactly what has changed by then; that append, wherever it raises, removes nothing and touches no other graph. C05 and C08 have the cases in which nothing changes."
  },
  {
   "property": "C99",
   "status": "proved",
   "theorems": [
    "Verif.C99_ancestors",
    "Verif.C99_loops",
    "Verif.C99_acyclic"
   ],
   "note": "Ancestors, descendants and loops after connect as a function of those before. The queries are taken to return within the recursion limit, which C21 settles."
  },
  {
   "property": "C100",
   "status": "proved",
   "theorems": [
    "Verif.C100_remove_node",
    "Verif.C100_disconnect",
    "Verif.C100_parallel",
    "Verif.C100_shrinks"
   ],
   "note": "PathAvoiding and PathWithout are the paths of the old graph that avoid the node, or do not use the edge."
  },
  {
   "property": "C101",
   "status": "proved",
   "theorems": [
    "Verif.C101_connect",
    "Verif.C101_add_node"
   ],
   "note": "Equality of the stores of nodes, edges and graphs; the object of the removed edge or node itself stays in memory, in no graph."
  },
  {
   "property": "C102",
   "status": "proved",
   "theorems": [
    "Verif.C102_reachability",
    "Verif.C102_loops",
    "Verif.C102_siblings",
    "Verif.C102_ends",
    "Verif.C102_roots",
    "Verif.C102_similar",
    "Verif.C102_copy"
   ],
   "note": "OneShape is in Spec/Shape.lean. The two graphs may be in different states of different sessions. The recursive queries are taken to return within the recursion limit (C21). absolute_roots and leaves are for graphs whose nodes were not added to a second graph."
  },
  {
   "property": "C103",
   "status": "proved",
   "theorems": [
    "Verif.C103_from_dict",
    "Verif.C103_from_dict_shape",
    "Verif.C103_from_lists",
    "Verif.C103_from_lists_differ"
   ],
   "note": "C103_from_lists_differ gives the limit for from_lists."
  },
  {
   "property": "C104",
   "status": "proved",
   "theorems": [
    "Verif.C104_grow",
    "Verif.C104_grow_reach",
    "Verif.C104_shrink",
    "Verif.C104_shrink_reach",
    "Verif.C104_still",
    "Verif.C104_calls_grow",
    "Verif.C104_calls_shrink"
   ],
   "note": "For every sequence of calls from every reachable state: sequences without removing calls extend every graph's lists at the end only and keep reachability and loops; sequences without adding calls leave sublists and add no reachability; sequences with neither leave the structure as it is. C104_calls_grow and C104_calls_shrink say the same for sessions of all public calls (append, +, filter, copy, stylize, render and constructors included)."
  },
  {
   "property": "C105",
   "status": "proved",
   "theorems": [
    "Verif.C105_result",
    "Verif.C105_order"
   ],
   "note": "The names and edge ids after a sequence of returning building calls are exactly those before plus those given, hence independent of the order; the resulting graphs have one shape (to which C102 applies)."
  },
  {
   "property": "C106",
   "status": "proved",
   "theorems": [
    "Verif.C106_result",
    "Verif.C106_order"
   ],
   "note": "C106_result says exactly what is left after any sequence of deletions; C106_order that the order and repetitions do not matter, whichever calls raise."
  },
  {
   "property": "C107",
   "status": "proved",
   "theorems": [
    "Verif.C107_exists",
    "Verif.C107_step",
    "Verif.C107_interleaved",
    "Verif.C107_alike",
    "Verif.C107_shape",
    "Verif.C107_copy",
    "Verif.C107_copy_behaves"
   ],
   "note": "Refinement of every mutating call by name to a ledger without objects; interleaving with calls elsewhere; two graphs with the same ledger; copies."
  },
  {
   "property": "C108",
   "status": "proved",
   "theorems": [
    "Verif.C108_alike",
    "Verif.C108_alike_home",
    "Verif.C108_after",
    "Verif.C108_copy",
    "Verif.C108_copy_after"
   ],
   "note": "A simulation between two heaps carries every query over; the two graphs need only show the same texts in the same order. Answers that go through node.graph need the nodes to know their graphs alike, and for copies this is exactly when they agree. Sorting of nodes by index is not covered."
  },
  {
   "property": "C109",
   "status": "partial",
   "theorems": [
    "Verif.C109_share_violated",
    "Verif.C109_order_violated",
    "Verif.C109_source",
    "Verif.C109_draw_partial",
    "Verif.C109_draws_partial",
    "Verif.C109_tidy_partial",
    "Verif.C109_unstyled_partial"
   ],
   "note": "C109_source is the full claim for the text given to Graphviz. For stylize, render, get_svg and get_html the claim is false where style objects are shared (C109_share_violated) or a node was removed and added back (C109_order_violated). C109_draw_partial and C109_draws_partial prove it for graphs whose nodes compare alike and share style objects alike; C109_tidy_partial shows that this is so after every session that passes on no style object and adds no node object back, C109_unstyled_partial for graphs without styles."
  },
  {
   "property": "C110",
   "status": "partial",
   "theorems": [
    "Verif.C110_order_partial",
    "Verif.C110_sorted_partial",
    "Verif.C110_rank_partial",
    "Verif.C110_violated"
   ],
   "note": "Proved for every session of public calls in which no node object is given back to add_node. C110_violated: any node but the last that is removed and added back is listed last but compares smaller."
  },
  {
   "property": "C111",
   "status": "partial",
   "theorems": [
    "Verif.C111_node_colours",
    "Verif.C111_node_shown",
    "Verif.C111_edge_colours",
    "Verif.C111_edge_shown",
    "Verif.C111_node_assigned",
    "Verif.C111_node_reset",
    "Verif.C111_recolour_violated",
    "Verif.C111_edge_assigned"
   ],
   "note": "Proved for all arguments and colours, but for one sentence: the main colour assigned to a new node style is not shown (C111_recolour_violated)."
  },
  {
   "property": "C112",
   "status": "proved",
   "theorems": [
    "Verif.C112_append",
    "Verif.C112_new",
    "Verif.C112_dict",
    "Verif.C112_program",
    "Verif.C112_from_new"
   ],
   "note": "append, both constructors and whole programs, for all dictionaries and sessions; drawing and appending whole graphs to the graph itself are not among the steps of a program."
  },
  {
   "property": "C113",
   "status": "proved",
   "theorems": [
    "Verif.C113_commute",
    "Verif.C113_alone",
    "Verif.C113_serial",
    "Verif.C113_schedules"
   ],
   "note": "Two independent calls raise the same in either order and lead to the same graph up to listing order (C113_commute); in every interleaving of two independent parties each gets what it would get alone (C113_alone), every schedule gives the graph of the serial one (C113_serial), any two schedules agree (C113_schedules). The listing order does depend on the schedule, and calls that are not independent do not commute: both shown by examples."
  },
  {
   "property": "C114",
   "status": "proved",
   "theorems": [
    "Verif.C114_known",
    "Verif.C114_rendered",
    "Verif.C114_key_error",
    "Verif.C114_node_removed",
    "Verif.C114_edge_removed"
   ],
   "note": "Styling succeeds only if all settings name nodes and edges of the graph; the exception; removal leaves settings behind and the graph can no longer be drawn. For every reachable graph, stylist, shuffling and argument."
  },
  {
   "property": "C115",
   "status": "proved",
   "theorems": [
    "Verif.C115_objects",
    "Verif.C115_listed",
    "Verif.C115_nodes"
   ],
   "note": "The dictionary in closed form, for graphs and for objects, in terms of an independent depth-first search. The dictionary of get_ancestors of a graph is not given in closed form; C24 says what is known of it."
  },
  {
   "property": "C116",
   "status": "proved",
   "theorems": [
    "Verif.C116_order",
    "Verif.C116_first"
   ],
   "note": "In terms of an independent walk, which is shown to be deterministic."
  },
  {
   "property": "C117",
   "status": "proved",
   "theorems": [
    "Verif.C117_limited",
    "Verif.C117_large"
   ],
   "note": "In terms of an independent search, which is shown to be deterministic. C30 says how this differs from \"all objects within distance d\"."
  },
  {
   "property": "C118",
   "status": "proved",
   "theorems": [
    "Verif.C118_styled",
    "Verif.C118_drawn"
   ],
   "note": "C118_styled, C118_drawn. Hypotheses besides Sensible: the nodes belong to the graph (no node was removed and added again), overwriting is allowed."
  },
  {
   "property": "C119",
   "status": "proved",
   "theorems": [
    "Verif.C119_first",
    "Verif.C119_drawn"
   ],
   "note": "C119_first, C119_drawn. Hypotheses besides Sensible: the nodes belong to the graph, nothing in it has a style yet."
  },
  {
   "property": "C120",
   "status": "proved",
   "theorems": [
    "Verif.C120_exclude",
    "Verif.C120_exact",
    "Verif.C120_include",
    "Verif.C120_one",
    "Verif.C120_loops",
    "Verif.C120_queries",
    "Verif.C120_lost"
   ],
   "note": "C120_exact (everything), C120_exclude, C120_include, C120_one, C120_loops, C120_queries; C120_lost shows that the case of several nodes cannot be stronger. Hypothesis: the nodes belong to the graph and the stack limit is at least their number."
  },
  {
   "property": "C121",
   "status": "partial",
   "theorems": [
    "Verif.C121_same_partial",
    "Verif.C121_shape_partial",
    "Verif.C121_settings_partial",
    "Verif.C121_render_partial",
    "Verif.C121_violated"
   ],
   "note": "For texts that may stand in quotes (Drawable) and nodes that belong to their graph. Names with quotes can forge a source: C121_violated."
  },
  {
   "property": "C122",
   "status": "partial",
   "theorems": [
    "Verif.C122_same_partial",
    "Verif.C122_violated",
    "Verif.C122_label_violated"
   ],
   "note": "For nodes that are shown under their names (no label of their own, no line break, no star at the end) and belong to their graph; otherwise C122_violated, C122_label_violated."
  },
  {
   "property": "C123",
   "status": "proved",
   "theorems": [
    "Verif.C123_objects",
    "Verif.C123_descendants",
    "Verif.C123_ancestors",
    "Verif.C123_far_descendant",
    "Verif.C123_far_ancestor"
   ],
   "note": "Exact: returns iff every find of the depth-first search is fewer than lim levels down, RecursionError otherwise. A frame of the model is one recursive call; the frames of helper calls are not counted."
  },
  {
   "property": "C124",
   "status": "proved",
   "theorems": [
    "Verif.C124_again",
    "Verif.C124_gone",
    "Verif.C124_split",
    "Verif.C124_union",
    "Verif.C124_exclude",
    "Verif.C124_both"
   ],
   "note": "The calls return, except that a styled node makes filter raise (C34_violated); the hypotheses say that they returned. Names in order, and which name is joined to which; the attributes kept are in C34."
  },
  {
   "property": "C125",
   "status": "proved",
   "theorems": [
    "Verif.C125_tree",
    "Verif.C125_order",
    "Verif.C125_gap"
   ],
   "note": "the order is characterised exactly; C125_gap shows a text whose order is not kept"
  },
  {
   "property": "C126",
   "status": "proved",
   "theorems": [
    "Verif.C126_stands_for",
    "Verif.C126_same",
    "Verif.C126_unknown",
    "Verif.C126_known",
    "Verif.C126_same_loop",
    "Verif.C126_calls",
    "Verif.C126_filter",
    "Verif.C126_calls_unknown",
    "Verif.C126_node_name"
   ],
   "note": "get_node_name, which never looks a node object up, is described by C126_node_name"
  },
  {
   "property": "C127",
   "status": "proved",
   "theorems": [
    "Verif.C127_node",
    "Verif.C127_order",
    "Verif.C127_enough",
    "Verif.C127_frames",
    "Verif.C127_graph"
   ],
   "note": "For graphs whose nodes belong to them (C12 says when): get_tree_str of a node and of a graph, exact stack requirement, order and number of the lines."
  },
  {
   "property": "C128",
   "status": "proved",
   "theorems": [
    "Verif.C128_questions",
    "Verif.C128_nodes",
    "Verif.C128_objects",
    "Verif.C128_filter",
    "Verif.C128_draw",
    "Verif.C128_given",
    "Verif.C128_shown",
    "Verif.C128_any_two"
   ],
   "note": "In all states. Needs no hypothesis but the order of the two stack sizes."
  },
  {
   "property": "C129",
   "status": "proved",
   "theorems": [
    "Verif.C129_reindent",
    "Verif.C129_detected",
    "Verif.C129_recover"
   ],
   "note": "C129_reindent: the calls are equal as state transformers. C129_detected: the same without the unit, for outlines whose depths are in order. C129_recover: the levels can be read off the graph."
  },
  {
   "property": "C130",
   "status": "partial",
   "theorems": [
    "Verif.C130_names_partial",
    "Verif.C130_values",
    "Verif.C130_disjoint_partial",
    "Verif.C130_order_violated",
    "Verif.C130_brackets_violated"
   ],
   "note": "The property is false: C130_order_violated, C130_brackets_violated (values), C43_edges_violated (graphs with edges cannot be added). C130_names_partial proves it for the names, C130_disjoint_partial for the values of graphs with no name in common, and C130_values gives the value at every name of every sum exactly."
  },
  {
   "property": "C131",
   "status": "partial",
   "theorems": [
    "Verif.C131_session",
    "Verif.C131_node",
    "Verif.C131_edge",
    "Verif.C131_edge_lasts",
    "Verif.C131_ends_partial",
    "Verif.C131_parallel_violated",
    "Verif.C131_dash_violated",
    "Verif.C131_removed_violated"
   ],
   "note": "For nodes everything, in all states and for ever (C131_node); edges of a graph print their ends (C131_edge), the same at all times (C131_edge_lasts), and are told apart if the names of their starts do not contain -Node: (C131_ends_partial). The rest is false: C131_parallel_violated, C131_dash_violated, C131_removed_violated. That printing lasts is also proved for whole sessions (`C131_session`)."
  },
  {
   "property": "C132",
   "status": "proved",
   "theorems": [
    "Verif.C132_node",
    "Verif.C132_edge_gone",
    "Verif.C132_edge",
    "Verif.C132_session_node",
    "Verif.C132_session_edge_gone",
    "Verif.C132_session_edge"
   ],
   "note": "For all histories of the calls of `Op` and, with the same statements, for all sessions (`Call`: dictionaries, sums, stylize and render included). Assigning node.id or edge.id directly (renaming, C82) is not among them."
  }
 ]
}