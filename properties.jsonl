{"id": "C01", "title": "Edge bookkeeping is symmetric in every reachable state", "statement": "After any history of graph calls, including calls that raise, an edge is among the outward edges of a node exactly when it is among the inward edges of its end node, under the same id, both end points are registered in the same graph, and no node or edge is registered twice.", "quantifier": "every finite sequence of new graph / add_node / connect / disconnect / remove_self / remove_node / attribute calls, over any number of graphs, with arbitrary arguments (also failing ones); histories in which a detached Node object is added to a second graph while registered in a first are excluded (see C56)", "why_tests_cant": "the state is a web of mutable objects pointing at each other; only an invariant over all histories rules out a call order that leaves a dangling half-edge", "anchors": ["abstract/_BasicGraph.py:add_node", "abstract/_BasicGraph.py:remove_node", "abstract/_BasicGraph.py:connect", "abstract/_BasicGraph.py:disconnect", "abstract/Edge.py:remove_self", "abstract/Node.py:remove_edges"]}
{"id": "C02", "title": "A graph behaves like an ordered list of nodes and an ordered list of edges", "statement": "Whatever calls were made, the observable graph (nodes, outward/inward edges of each node, in order) is that of the obvious abstract multigraph: add_node appends a missing name, connect appends a missing (start,end,id), disconnect / remove_self delete one edge, remove_node deletes one node with its incident edges, and nothing else changes.", "quantifier": "every history of API calls over any number of graphs, every graph, every node; histories in which a detached Node object is added to a second graph while registered in a first are excluded (see C56)", "why_tests_cant": "unit tests check a few end states; the claim is a refinement over all interleavings of calls on several graphs", "anchors": ["abstract/_BasicGraph.py", "abstract/Node.py", "abstract/Edge.py"]}
{"id": "C03", "title": "connect on registered end points never reports an inconsistent graph", "statement": "If both end points are in the graph, connect with policy warn or ignore and no style or value conflict returns an edge whose id is (start,end,id), which is then an outward edge of start and an inward edge of end; the 'This is very weird' errors are unreachable.", "quantifier": "every reachable state, every pair of registered end points (also a node with itself), every id; histories in which a detached Node object is added to a second graph while registered in a first are excluded (see C56)", "why_tests_cant": "the error branches depend on the internal agreement of two dictionaries in every reachable state", "anchors": ["abstract/_BasicGraph.py:connect"]}
{"id": "C04", "title": "connect is idempotent and only updates the given fields", "statement": "Connecting the same (start,end,id) again returns the very same edge object, adds no edge and reorders nothing; label and value change only when given, and every other edge is untouched.", "quantifier": "every reachable state and every argument combination; histories in which a detached Node object is added to a second graph while registered in a first are excluded (see C56)", "why_tests_cant": "needs all histories and a frame condition over all other objects", "anchors": ["abstract/_BasicGraph.py:connect"]}
{"id": "C05", "title": "A failed connect leaves the graph unchanged", "statement": "connect with an unknown end point raises KeyError, and with policy 'error' on an existing edge raises ValueError; in both cases no node or edge of any graph changes.", "quantifier": "every reachable state, every argument; histories in which a detached Node object is added to a second graph while registered in a first are excluded (see C56)", "why_tests_cant": "error paths of mutating code over all states", "anchors": ["abstract/_BasicGraph.py:connect", "abstract/_BasicGraph.py:get_node"]}
{"id": "C06", "title": "remove_node removes exactly the node and its incident edges", "statement": "After remove_node(x) the graph has the same nodes in the same order minus x, and the same edges in the same order minus those that start or end at x (self-loops and parallel edges included); the removed edge objects report no start, end or graph; nothing else changes.", "quantifier": "every reachable state, every node in it; histories in which a detached Node object is added to a second graph while registered in a first are excluded (see C56)", "why_tests_cant": "the loop deletes from the dictionaries it derives its work from; self-loops and parallel edges are combinations tests sample sparsely", "anchors": ["abstract/_BasicGraph.py:remove_node", "abstract/Node.py:remove_edges", "abstract/Node.py:edges", "abstract/Edge.py:remove_self"]}
{"id": "C07", "title": "disconnect and remove_self delete exactly one edge, once", "statement": "Disconnecting (or remove_self on) an edge of the graph removes exactly that edge from both end points and changes nothing else; doing it a second time raises and changes nothing.", "quantifier": "every reachable state, every edge object, live or already removed; histories in which a detached Node object is added to a second graph while registered in a first are excluded (see C56)", "why_tests_cant": "double-delete and stale handles over all histories", "anchors": ["abstract/_BasicGraph.py:disconnect", "abstract/Edge.py:remove_self"]}
{"id": "C08", "title": "Node names are unique and add_node on an existing name is an update", "statement": "add_node(name) of a new name appends one node; on an existing name it returns the existing object, changes only the given label/value/style, or with policy 'error' raises KeyError and changes nothing.", "quantifier": "every reachable state, every name and policy; histories in which a detached Node object is added to a second graph while registered in a first are excluded (see C56)", "why_tests_cant": "quantifies over all reachable states", "anchors": ["abstract/_BasicGraph.py:add_node"]}
{"id": "C09", "title": "Node comparison is a strict total order that follows creation order", "statement": "Nodes created by add_node in one graph get strictly increasing indices that are never reused even after removals, so < on them is a strict total order agreeing with creation order and == on registered nodes is object identity.", "quantifier": "every history of one graph, every pair of nodes; histories in which a detached Node object is added to a second graph while registered in a first are excluded (see C56)", "why_tests_cant": "index reuse after removals depends on the history", "anchors": ["abstract/Node.py:__lt__", "abstract/Node.py:__eq__", "abstract/_BasicGraph.py:generate_node_index", "abstract/_BasicGraph.py:add_node"]}
{"id": "C10", "title": "Graphs are isolated from each other", "statement": "A call on one graph never changes the nodes, edges or attributes of another graph, even when it is handed a Node object of the other graph.", "quantifier": "every reachable state with any number of graphs, every call; histories in which a detached Node object is added to a second graph while registered in a first are excluded (see C56)", "why_tests_cant": "aliasing between object webs; tests only look at one graph", "anchors": ["abstract/_BasicGraph.py:get_node", "abstract/_BasicGraph.py:connect", "abstract/_BasicGraph.py:remove_node"]}
{"id": "C11", "title": "edges lists every edge exactly once, and degrees add up", "statement": "graph.edges has no repetition and the same members as edges_dict and as the union of the outward (equivalently inward) edges; its length equals the sum of num_children and the sum of num_parents over all nodes.", "quantifier": "every reachable state; histories in which a detached Node object is added to a second graph while registered in a first are excluded (see C56)", "why_tests_cant": "counting argument over arbitrary graphs with loops and parallel edges", "anchors": ["abstract/_BasicGraph.py:edges", "abstract/_BasicGraph.py:edges_dict", "abstract/Node.py:edges", "abstract/_BasicGraph.py:num_children", "abstract/_BasicGraph.py:num_parents"]}
{"id": "C12", "title": "A removed node can be added back", "statement": "After remove_node(x), add_node(x_object) makes x a fully working member of the graph again (x.graph is the graph; x.children, x.parents work).", "quantifier": "every reachable state, every removed node object", "why_tests_cant": "needs a state reached by a removal; the defect shows only through later calls", "anchors": ["abstract/_BasicGraph.py:add_node", "abstract/_BasicGraph.py:remove_node", "abstract/Node.py:children"]}
{"id": "C13", "title": "The in operator decides membership", "statement": "x in graph is True exactly when a node of that name is registered, for a name as well as for a Node object, and never raises.", "quantifier": "every reachable state, every name / node, every string hash function", "why_tests_cant": "depends on hashing and on dictionary probing with mixed key types", "anchors": ["abstract/_BasicGraph.py:__contains__", "abstract/Node.py:__eq__", "abstract/Node.py:__hash__"]}
{"id": "C14", "title": "A frozen object's value never changes", "statement": "Between freeze() and unfreeze() no sequence of calls changes the value of the node or edge; attempts raise RuntimeError.", "quantifier": "every history after a freeze that contains no unfreeze of that object", "why_tests_cant": "all interleavings of later calls, including add_node/connect updates", "anchors": ["abstract/_GraphObj.py:value", "abstract/_GraphObj.py:freeze", "abstract/_BasicGraph.py:add_node", "abstract/_BasicGraph.py:connect"]}
{"id": "C15", "title": "Styles are write-once unless overwriting is allowed", "statement": "In a graph with style_overwrite_allowed=False, once a node or edge has a style no later call replaces it; an attempt raises RuntimeError.", "quantifier": "every history of calls", "why_tests_cant": "all histories", "anchors": ["abstract/Node.py:style", "abstract/Edge.py:style", "abstract/_GraphObj.py"]}
{"id": "C16", "title": "== and != are coherent", "statement": "For two nodes, and for two edges of one graph, exactly one of a == b and a != b holds, and == is an equivalence compatible with hash().", "quantifier": "every pair of nodes / edges of a reachable state", "why_tests_cant": "all pairs of objects", "anchors": ["abstract/_GraphObj.py:__eq__", "abstract/_GraphObj.py:__ne__", "abstract/Node.py:__eq__", "abstract/Node.py:__ne__"]}
{"id": "C17", "title": "A strict graph has no parallel edges", "statement": "In a graph created with strict=True there is at most one edge between an ordered pair of nodes, whatever connect calls are made.", "quantifier": "every history of connect calls on a strict graph", "why_tests_cant": "all histories", "anchors": ["abstract/_BasicGraph.py:connect", "abstract/_BasicGraph.py:__init__"]}
{"id": "C18", "title": "ancestors is exactly reverse reachability", "statement": "node.ancestors lists, without repetition, exactly the nodes from which a non-empty directed path leads to node (node itself included exactly when it lies on a cycle).", "quantifier": "every reachable graph, cyclic or not, with self-loops and parallel edges; every node", "why_tests_cant": "arbitrary graph shapes and depth-first orders with a shared visited list", "anchors": ["abstract/_BasicGraph.py:_get_ancestors", "abstract/_BasicGraph.py:get_ancestors", "abstract/Node.py:ancestors"]}
{"id": "C19", "title": "descendants is exactly reachability, in depth-first preorder", "statement": "node.descendants lists, without repetition, exactly the nodes other than node reachable from it, in depth-first preorder following the order of outward edges.", "quantifier": "every reachable graph, every node", "why_tests_cant": "arbitrary graph shapes", "anchors": ["abstract/_BasicGraph.py:_get_descendants", "abstract/_BasicGraph.py:get_descendants", "abstract/Node.py:descendants"]}
{"id": "C20", "title": "Ancestors and descendants are dual", "statement": "For distinct nodes, a is an ancestor of b exactly when b is a descendant of a; num_descendants is the number of such b.", "quantifier": "every reachable graph, every pair of nodes", "why_tests_cant": "two separately written traversals must agree on all graphs", "anchors": ["abstract/_BasicGraph.py:_get_ancestors", "abstract/_BasicGraph.py:_get_descendants"]}
{"id": "C21", "title": "Traversals terminate and recurse at most once per node", "statement": "get_ancestors and get_descendants terminate on every graph, and the recursion depth never exceeds the number of nodes of the graph.", "quantifier": "every reachable graph, cyclic or not", "why_tests_cant": "non-termination and depth bounds are not observable by sampling", "anchors": ["abstract/_BasicGraph.py:_get_ancestors", "abstract/_BasicGraph.py:_get_descendants"]}
{"id": "C22", "title": "is_in_loop detects exactly the nodes on cycles", "statement": "node.is_in_loop() is True exactly when a non-empty directed path leads from node back to it; loop_nodes is the list of these; apart from self-loops this is 'has a descendant that is also an ancestor'.", "quantifier": "every reachable graph, every node", "why_tests_cant": "arbitrary cyclic graphs", "anchors": ["abstract/_BasicGraph.py:is_node_in_loop", "abstract/_BasicGraph.py:loop_nodes", "abstract/Node.py:is_in_loop", "README.md"]}
{"id": "C23", "title": "Being in the same loop is an equivalence on loop nodes", "statement": "is_in_loop_with is symmetric and transitive, reflexive exactly on loop nodes, and holds exactly when each node is reachable from the other; an edge is in a loop exactly when some cycle uses it.", "quantifier": "every reachable graph, every two or three nodes, every edge", "why_tests_cant": "strongly connected components of arbitrary graphs", "anchors": ["abstract/_BasicGraph.py:are_nodes_in_same_loop", "abstract/Node.py:is_in_loop_with", "abstract/Edge.py:is_in_loop"]}
{"id": "C24", "title": "Distances reported by get_ancestors / get_descendants are right and complete", "statement": "get_ancestors(distance=True) (resp. descendants) maps d to nodes at distance d: every listed node has a path of exactly d edges, entry 1 lists exactly the parents, and every ancestor is listed under some distance.", "quantifier": "every reachable graph, every node", "why_tests_cant": "depends on merge order of dictionaries in branching graphs", "anchors": ["abstract/_BasicGraph.py:_get_ancestors", "abstract/_BasicGraph.py:_get_descendants"]}
{"id": "C25", "title": "roots covers the graph with no redundancy", "statement": "Every node is a root or a descendant of a root; no root is a descendant of another root; nodes without parents are roots; in an acyclic graph the roots are exactly the nodes without parents; a non-empty graph has a root.", "quantifier": "every reachable graph, cyclic or not", "why_tests_cant": "greedy removal order on arbitrary cyclic graphs", "anchors": ["abstract/_BasicGraph.py:roots", "abstract/_BasicGraph.py:absolute_roots"]}
{"id": "C26", "title": "leaves and absolute_roots are exact", "statement": "leaves is exactly the list of nodes with no outward edge and absolute_roots exactly the list of nodes with no inward edge, in graph order; an acyclic non-empty graph has at least one of each.", "quantifier": "every reachable graph", "why_tests_cant": "arbitrary graphs", "anchors": ["abstract/_BasicGraph.py:leaves", "abstract/_BasicGraph.py:absolute_roots", "abstract/Node.py:has_parents", "abstract/Node.py:has_children"]}
{"id": "C27", "title": "Siblings and co-parents are exact and symmetric", "statement": "a is a sibling of b iff a differs from b and they share a parent (dually co-parents); the relation is symmetric, no repetition; Node.siblings / co_parents agree with graph.get_siblings / get_spouses.", "quantifier": "every reachable graph, every node pair", "why_tests_cant": "two independently written implementations must agree on all graphs", "anchors": ["abstract/_BasicGraph.py:get_siblings", "abstract/_BasicGraph.py:get_spouses", "abstract/Node.py:siblings", "abstract/Node.py:co_parents"]}
{"id": "C28", "title": "The tree string shows the whole graph once", "statement": "get_tree_str terminates on every graph; it expands every node that has children exactly once and marks further occurrences with *; it has one line per root and one line per edge, so every node appears.", "quantifier": "every reachable graph, cyclic or not", "why_tests_cant": "shared already_added list and cycles", "anchors": ["abstract/_BasicGraph.py:get_tree_str", "abstract/Node.py:get_tree_str"]}
{"id": "C29", "title": "Object traversal without depth limit is exact reachability", "statement": "get_descendants(obj, distance=False) (dually get_ancestors) returns exactly the objects other than obj reachable through __children__ (__parents__), without repetition, in depth-first preorder.", "quantifier": "every finite object graph", "why_tests_cant": "arbitrary object graphs", "anchors": ["abstract/get_descendants.py", "abstract/get_ancestors.py"]}
{"id": "C30", "title": "max_depth limits object traversal to distance max_depth", "statement": "get_descendants(obj, max_depth=d) terminates on any object graph (even infinite) and returns exactly the objects other than obj at distance at most d.", "quantifier": "every object graph, every d", "why_tests_cant": "interaction of a shared visited list with a depth limit depends on visiting order", "anchors": ["abstract/get_descendants.py", "abstract/get_ancestors.py"]}
{"id": "C31", "title": "copy returns an isomorphic graph", "statement": "g.copy() has the same names in the same order, same indices, labels, values and parameters, and the same edges (ids, order per node, attributes) as g, and g.copy().is_similar_to(g) is True.", "quantifier": "every reachable graph without styles", "why_tests_cant": "deep copy of a cyclic object web through custom pickling hooks", "anchors": ["abstract/_BasicGraph.py:copy", "abstract/_BasicGraph.py:__getstate__", "abstract/_GraphWithoutDisplay.py:__setstate__", "abstract/Node.py:__setstate__", "abstract/Node.py:update_edges", "abstract/Edge.py:__setstate__"]}
{"id": "C32", "title": "A copy is independent of the original", "statement": "Copying changes nothing in the original and shares no node or edge object with it; later calls on either never affect the other.", "quantifier": "every reachable graph, every later history", "why_tests_cant": "aliasing after deep copy, over all later histories", "anchors": ["abstract/_BasicGraph.py:copy"]}
{"id": "C33", "title": "copy works in every state", "statement": "g.copy() succeeds for every reachable graph, also after styling or rendering, and the copy can be rendered.", "quantifier": "every reachable graph", "why_tests_cant": "needs styled states", "anchors": ["abstract/_BasicGraph.py:copy", "abstract/styling/NodeStyle.py:__setstate__", "abstract/_GraphWithoutDisplay.py:__getstate__"]}
{"id": "C34", "title": "filter returns the induced subgraph on the selected relatives", "statement": "filter(nodes, filter_type='include') returns a new graph with exactly the given nodes, their ancestors and their descendants, in original order, with exactly the edges among them; 'exclude' keeps exactly the others; the original is unchanged.", "quantifier": "every reachable unstyled graph, every list of nodes", "why_tests_cant": "composition of traversal, copy and deletion on arbitrary graphs", "anchors": ["abstract/_BasicGraph.py:filter"]}
{"id": "C35", "title": "filter honours its direction argument", "statement": "With direction='to' only ancestors, with 'from' only descendants of the given nodes are selected.", "quantifier": "every graph, every node list, every direction", "why_tests_cant": "needs graphs where ancestors and descendants differ", "anchors": ["abstract/_BasicGraph.py:filter"]}
{"id": "C36", "title": "from_lists creates exactly one edge per row", "statement": "from_lists(start,end,edge) yields a graph whose nodes are the distinct names in order of first appearance and whose edges are, for each row i below the shortest length, one edge from start[i] to end[i] with id i and label edge[i].", "quantifier": "all lists of strings of any lengths", "why_tests_cant": "all sizes and repetitions", "anchors": ["abstract/_BasicGraph.py:from_lists"]}
{"id": "C37", "title": "from_dict builds exactly the described graph", "statement": "from_dict(d) succeeds when every edge end is a listed node, and then the nodes are the listed ones in order and the edges the distinct (start,end,id) triples in order of first appearance; an edge to an unlisted node raises KeyError.", "quantifier": "all dictionaries of nodes and edges", "why_tests_cant": "all sizes, repetitions and orders", "anchors": ["abstract/_GraphWithoutDisplay.py:append", "abstract/_GraphWithoutDisplay.py:from_dict"]}
{"id": "C38", "title": "append is idempotent on structure", "statement": "Appending the same dictionary twice leaves the same nodes and edges as appending it once.", "quantifier": "every reachable graph, every dictionary", "why_tests_cant": "all states and inputs", "anchors": ["abstract/_GraphWithoutDisplay.py:append"]}
{"id": "C39", "title": "Indented text parses into the outline it shows", "statement": "For text whose lines are indented by repetitions of one unit (spaces or tabs, given or detected) with depth increasing by at most one, parse_indentations yields for each line its depth and the text after the indentation.", "quantifier": "all outlines, all indentation units, all line contents", "why_tests_cant": "unbounded texts; replace() acts on the whole line", "anchors": ["abstract/parse_indentations_function.py"]}
{"id": "C40", "title": "A line's parent is the nearest shallower line above it", "statement": "parse_indentations gives each line at depth L>0 the index of the closest preceding non-blank line of depth < L, which has depth exactly L-1; depth-0 lines have no parent; a jump of more than one level raises ValueError; hence from_indented_text builds a tree rooted at 'root' with one edge per line.", "quantifier": "all line sequences", "why_tests_cant": "unbounded sequences; stack discipline", "anchors": ["abstract/parse_indentations_function.py", "abstract/_BasicGraph.py:from_indented_text"]}
{"id": "C41", "title": "Random graphs without cycle=True are acyclic", "statement": "Graph.random(n, cycle=False) has exactly max(n,0) nodes named by consecutive integers, at most n(n-1)/2 edges, all from a smaller to a larger number, at most one per pair, and no node is in a loop, for every outcome of the random draws; probability 0 gives no edges, probability 1 gives all.", "quantifier": "every n, start index, probability and every outcome of the random generator", "why_tests_cant": "all random outcomes", "anchors": ["abstract/_GraphWithoutDisplay.py:random"]}
{"id": "C42", "title": "is_similar_to decides structural similarity", "statement": "g.is_similar_to(h) is True exactly when both have the same names, node values/styles/parameters, edge ids and edge values/styles/parameters and the same strict and ordering flags; it is reflexive and symmetric and never raises.", "quantifier": "every pair of reachable graphs", "why_tests_cant": "all pairs", "anchors": ["abstract/_BasicGraph.py:is_similar_to", "abstract/Node.py:is_similar_to", "abstract/Edge.py:is_similar_to", "abstract/_GraphObj.py:is_similar_to"]}
{"id": "C43", "title": "Adding graphs gives their union", "statement": "g1 + g2 has exactly the nodes and the edges of g1 and g2, values of shared nodes are the sum of both values, labels are kept, and the operands are unchanged.", "quantifier": "every pair of reachable graphs, every set iteration order", "why_tests_cant": "all pairs of graphs and hash orders", "anchors": ["abstract/_GraphWithoutDisplay.py:add", "abstract/_GraphWithoutDisplay.py:__graph__", "abstract/_GraphWithoutDisplay.py:__add__"]}
{"id": "C44", "title": "The Graphviz source declares every node and every edge exactly once", "statement": "get_graphviz_str contains one node statement per node in graph order and one edge statement per edge.", "quantifier": "every reachable graph", "why_tests_cant": "all graphs", "anchors": ["abstract/_GraphWithoutDisplay.py:get_graphviz_str", "abstract/Node.py:get_graphviz_str", "abstract/Edge.py:get_graphviz_str"]}
{"id": "C45", "title": "Node labels are quoted safely", "statement": "The label attribute emitted for a node, read by the DOT quoted-string rules, is one string token that denotes the label; no label, name or edge label can end the string early.", "quantifier": "all strings", "why_tests_cant": "all strings", "anchors": ["abstract/Node.py:label", "abstract/Node.py:get_graphviz_str", "abstract/Edge.py:get_graphviz_str"]}
{"id": "C46", "title": "Colours are handed out evenly", "statement": "k calls of get_least_used_colour on a fresh scheme of m colours cycle through the colours in scheme order, so use counts never differ by more than one.", "quantifier": "all schemes and all numbers of calls", "why_tests_cant": "unbounded call sequences", "anchors": ["abstract/styling/get_least_used_colour.py"]}
{"id": "C47", "title": "Diverging numbers are a symmetric spread", "statement": "generate_diverging_numbers(n) has n distinct values in [-1,1], closed under negation, containing 0 exactly for odd n, so sibling rank i < n always selects one, and larger ranks select larger numbers.", "quantifier": "all n >= 1", "why_tests_cant": "all n", "anchors": ["abstract/styling/inherit_style.py"]}
{"id": "C48", "title": "The default stylist styles every node and edge", "statement": "stylize_with_pensieve terminates without error on every graph and afterwards every node and every edge has a style; styles set beforehand are kept.", "quantifier": "every reachable graph, cyclic or not", "why_tests_cant": "depends on loop structure of arbitrary graphs", "anchors": ["abstract/styling/stylize_with_pensieve.py", "abstract/styling/inherit_style.py", "abstract/styling/stylize_edges_based_on_nodes.py"]}
{"id": "C49", "title": "Rendering can be repeated", "statement": "Once a graph has been stylized, stylizing it again succeeds and changes no style.", "quantifier": "every graph, every stylist", "why_tests_cant": "needs all graphs and settings", "anchors": ["abstract/_GraphWithoutDisplay.py:stylize", "abstract/_GraphWithoutDisplay.py:render", "abstract/styling/stylize_randomly.py"]}
{"id": "C50", "title": "An edge's arrow size reflects its own value", "statement": "stylize_edges_based_on_nodes gives each unstyled edge the base arrow size times its own value (base size if it has none).", "quantifier": "all edge lists", "why_tests_cant": "depends on the sequence of edges processed before", "anchors": ["abstract/styling/stylize_edges_based_on_nodes.py"]}
{"id": "C51", "title": "Style inheritance terminates on cyclic graphs", "statement": "inherit_style terminates for every node of every graph, with recursion depth at most the number of nodes, and never indexes an empty list of parent styles.", "quantifier": "every graph, every node", "why_tests_cant": "termination over all graphs", "anchors": ["abstract/styling/inherit_style.py", "abstract/styling/is_root_or_parents_are_in_loop.py"]}
{"id": "C52", "title": "Child rank is a valid position among siblings", "statement": "get_child_rank(parent) returns the number of children entries smaller than the node, hence a number below the number of children; distinct children get distinct ranks; it raises ValueError exactly for non-children.", "quantifier": "every reachable graph, every node and parent", "why_tests_cant": "arbitrary graphs and orders", "anchors": ["abstract/Node.py:get_child_rank"]}
{"id": "C53", "title": "Style copies render like the original", "statement": "NodeStyle.copy() and EdgeStyle.copy() produce a style with the same Graphviz attributes, and inverting colours twice restores them.", "quantifier": "all styles", "why_tests_cant": "all styles", "anchors": ["abstract/styling/NodeStyle.py", "abstract/styling/EdgeStyle.py"]}
{"id": "C54", "title": "from_object draws the object graph", "statement": "Graph.from_object(obj) returns a graph with one node per object reachable through __children__ or __parents__.", "quantifier": "all objects", "why_tests_cant": "all objects", "anchors": ["abstract/_BasicGraph.py:from_object", "abstract/_BasicGraph.py:add_node"]}
{"id": "C55", "title": "Constructing a Node never damages the graph", "statement": "Node(graph=g, name=x) leaves every existing node and edge of g consistent, also when x is already a name in g.", "quantifier": "every reachable graph, every name", "why_tests_cant": "needs a populated graph and later calls to notice", "anchors": ["abstract/Node.py:__init__"]}
{"id": "C56", "title": "A node object belongs to at most one graph", "statement": "No sequence of add_node, remove_node and connect calls makes one Node object a member of two graphs, so edges never lead from one graph into another.", "quantifier": "every history over any number of graphs", "why_tests_cant": "all histories", "anchors": ["abstract/_BasicGraph.py:add_node", "abstract/_BasicGraph.py:remove_node"]}
{"id": "C57", "title": "Per-node queries report the edges at that node", "statement": "get_edges(x) lists every edge once for starting at x and once for ending there; get_children/get_parents list the far ends of the outward/inward edges in order with repetitions, num_* is their length and has_* says whether there is any; node.children, node.parents, has_children, has_parents agree with the graph's answers; a query about an unknown node raises KeyError.", "quantifier": "every reachable graph, every node", "why_tests_cant": "all graphs, including self-loops and parallel edges, after any history", "anchors": ["abstract/_BasicGraph.py:get_edges", "abstract/_BasicGraph.py:get_children", "abstract/_BasicGraph.py:num_parents", "abstract/_BasicGraph.py:has_parents", "abstract/Node.py:has_parents"]}
{"id": "C58", "title": "Parameters behave like a dictionary", "statement": "After obj[k] = v, obj[k] is v, every other parameter and every other object is unchanged; extra keyword arguments of add_node (new name) and connect (new edge) are the initial parameters; an unknown parameter raises KeyError.", "quantifier": "every heap, every node or edge, every key and value", "why_tests_cant": "all keys, values and prior states", "anchors": ["abstract/_GraphObj.py:get", "abstract/_GraphObj.py:set", "abstract/_GraphObj.py:__init__"]}
{"id": "C59", "title": "Graph options are fixed at construction", "statement": "Graph(strict, ordering, style_overwrite_allowed) creates an empty graph with exactly these options, affects no other graph, and no later add_node, remove_node, connect, disconnect, attribute or copy call changes them; only append with an explicit 'strict' or 'ordering' key sets those two.", "quantifier": "all option values, all later histories", "why_tests_cant": "all later histories", "anchors": ["abstract/_GraphWithoutDisplay.py:__init__", "abstract/_BasicGraph.py:__init__"]}
{"id": "C60", "title": "A node's label is what was last set, or its name", "statement": "node.label is the label with every double quote preceded by a backslash, or, if no label or an empty one was given, the name treated the same way; setting a label changes nothing else.", "quantifier": "all labels and names", "why_tests_cant": "all strings", "anchors": ["abstract/Node.py:label"]}
{"id": "C61", "title": "from_indented_text shows the text", "statement": "In the graph built by from_indented_text, the label of the node of each line shows the content of that line.", "quantifier": "all texts", "why_tests_cant": "all texts", "anchors": ["abstract/_BasicGraph.py:from_indented_text"]}
{"id": "C62", "title": "Copies can be used like originals", "statement": "Everything that can be asked of a graph (rendering it, node labels with a converter, adding nodes) can be asked of its copy and of a filtered graph, with the same result.", "quantifier": "every reachable graph", "why_tests_cant": "all graph states; depends on which private attributes the copy carries", "anchors": ["abstract/_BasicGraph.py:copy", "abstract/_GraphWithoutDisplay.py:__getstate__", "abstract/_GraphWithoutDisplay.py:filter"]}
{"id": "C63", "title": "The default stylist hands out the scheme's colours in turn", "statement": "stylize_with_pensieve gives every unstyled node without a parent off cycles the default node style; the j-th such node, in the order of the graph's nodes, gets the (j mod m)-th of the m distinct colours of the scheme.", "quantifier": "every reachable graph, every colour scheme, every set of nodes styled beforehand", "why_tests_cant": "depends on the loop structure and on how many nodes come before, for arbitrary graphs", "anchors": ["abstract/styling/stylize_with_pensieve.py", "abstract/styling/get_least_used_colour.py", "abstract/styling/is_root_or_parents_are_in_loop.py"]}
{"id": "C64", "title": "Nodes take after their parents", "statement": "An unstyled node on no cycle with a parent on no cycle gets the style of its only parent with the hue shifted by its rank among the siblings and three quarters of the saturation, or, with several parents, the first such parent's style in the mixed and paled colour of those it shares no cycle with; recursively up to the nodes that inherit from nobody.", "quantifier": "every reachable graph, every node", "why_tests_cant": "recursion over arbitrary graphs", "anchors": ["abstract/styling/inherit_style.py", "abstract/styling/stylize_with_pensieve.py"]}
{"id": "C65", "title": "The Graphviz source carries the settings of the picture", "statement": "The source sets bgcolor to the background colour, pad to the padding asked for, size to the width and height asked for and rankdir to the direction of the graph or the one asked for, each at most once, and leaves rankdir out for a drawing from top to bottom.", "quantifier": "every reachable graph, every direction, height, width and padding", "why_tests_cant": "all display attributes and arguments", "anchors": ["abstract/_GraphWithoutDisplay.py:get_graphviz_header"]}
{"id": "C66", "title": "A graph with ordering=True keeps the order of its edges in the picture", "statement": "The source has ordering=out exactly if the graph was made with ordering=True.", "quantifier": "every reachable graph", "why_tests_cant": "all graphs", "anchors": ["abstract/_GraphWithoutDisplay.py:get_graphviz_header", "abstract/_BasicGraph.py:__init__"]}
{"id": "C67", "title": "Styling changes nothing but styles", "statement": "However stylize ends, every attribute of every node and edge other than its style, every graph and every display setting is what it was before, no object is created other than styles, no warning is issued, and no node or edge loses its style.", "quantifier": "every world with existing style objects, every stylist, every setting, every outcome including exceptions", "why_tests_cant": "exceptions at any step, all settings", "anchors": ["abstract/_GraphWithoutDisplay.py:stylize", "abstract/styling"]}
{"id": "C68", "title": "render returns the source of the styled graph", "statement": "If render returns, styling has succeeded, and the source that is returned declares exactly the nodes and edges of the graph, with the styles they have after styling.", "quantifier": "every reachable graph whose texts may stand in quotes, every stylist and setting", "why_tests_cant": "all graphs, styles and settings", "anchors": ["abstract/_GraphWithoutDisplay.py:render"]}
{"id": "C69", "title": "render honours height and width", "statement": "The source returned by render has the size asked for by height and width.", "quantifier": "every graph, every height and width", "why_tests_cant": "all sizes", "anchors": ["abstract/_GraphWithoutDisplay.py:render"]}
{"id": "C70", "title": "Colours of single nodes and edges need permission", "statement": "In a graph made without style_overwrite_allowed=True, stylize and render raise an exception whenever the colour of a single node or edge is set.", "quantifier": "every reachable graph, every stylist and setting", "why_tests_cant": "all graphs and settings", "anchors": ["abstract/_GraphWithoutDisplay.py:stylize", "abstract/_GraphObj.py", "abstract/Node.py:style"]}
{"id": "C71", "title": "Settings count in a fixed order", "statement": "After stylize has succeeded, every node and edge for which anything is set has a style, and the style shows every setting that is not overruled: settings for all nodes (edges) overrule the colour given for a single one, which overrules the settings given for a single one, which overrule the stylist. The colour of a node decides its fill, border and text colours as well, the colour of an edge its text colour.", "quantifier": "every reachable graph without shared style objects, every stylist, every combination of node_style, edge_style, node_styles, edge_styles, node_colours and edge_colours", "why_tests_cant": "all combinations of settings, graphs and stylists", "anchors": ["abstract/_GraphWithoutDisplay.py:stylize", "abstract/styling/NodeStyle.py:complement", "abstract/styling/EdgeStyle.py:complement"]}
{"id": "C72", "title": "A style for all makes all alike, and no style means no change", "statement": "With a style for all nodes (edges), all nodes (edges) without settings of their own look the same after stylize, whatever the stylist; without any settings, nodes and edges that already had a style keep it.", "quantifier": "every reachable graph without shared style objects, every stylist and setting", "why_tests_cant": "all graphs, settings and prior styles", "anchors": ["abstract/_GraphWithoutDisplay.py:stylize", "abstract/styling/stylize_randomly.py"]}
{"id": "C73", "title": "The shape auto becomes a shape", "statement": "If the style for all nodes has a shape beginning with auto, stylize does not fail for it, and no node is left with that shape: the nodes are circles if all names have at most two characters.", "quantifier": "every reachable graph, including empty ones, all names", "why_tests_cant": "all sets of names", "anchors": ["abstract/_GraphWithoutDisplay.py:stylize"]}
{"id": "C74", "title": "Painting at random uses the colours in turn", "statement": "stylize_randomly gives the nodes, in the shuffled order, the colours of the scheme one after the other, beginning again when they are used up, so that no colour of the scheme is used by two nodes more than another; it overwrites the styles of nodes that had one.", "quantifier": "every reachable graph, every shuffle, every colour scheme", "why_tests_cant": "all graphs, shuffles and schemes", "anchors": ["abstract/styling/stylize_randomly.py:stylize_randomly", "abstract/styling/get_least_used_colour.py"]}
{"id": "C75", "title": "A graph can be made from a graph", "statement": "Graph(obj=g) and append(g) give a graph with the nodes, edges, values, labels and the label of g, and leave g as it was.", "quantifier": "every reachable graph g, every graph to append to", "why_tests_cant": "all graphs", "anchors": ["abstract/_GraphWithoutDisplay.py:GraphWithoutDisplay.__init__", "abstract/_GraphWithoutDisplay.py:append", "abstract/_GraphWithoutDisplay.py:__graph__"]}
{"id": "C76", "title": "append takes over what a dictionary says about the picture", "statement": "After append of a dictionary the label, tooltip, link, direction and the styles for all nodes and edges are the ones it mentions, or else the old ones, and the styles and colours of single nodes and edges are the old ones overwritten with those it mentions; no other graph is affected.", "quantifier": "every reachable graph, every dictionary", "why_tests_cant": "all dictionaries, all combinations of keys", "anchors": ["abstract/_GraphWithoutDisplay.py:append"]}
{"id": "C77", "title": "The constructor prefers its arguments to the dictionary's settings", "statement": "Graph(obj=D) takes the colour scheme and the stylist from D unless the caller gives one, and strictness, ordering and the permission to overwrite styles from D where D has them; the new graph has the nodes and edges of D and no other graph changes.", "quantifier": "every reachable state, all arguments, every dictionary", "why_tests_cant": "all combinations of arguments and keys", "anchors": ["abstract/_GraphWithoutDisplay.py:GraphWithoutDisplay.__init__", "abstract/_GraphWithoutDisplay.py:append"]}
{"id": "C78", "title": "A style given as a dictionary shows every setting", "statement": "A style made from a dictionary shows every setting in it; attributes it does not mention have their defaults or follow from the colour; it is refused if and only if it has an unknown key.", "quantifier": "all dictionaries of settings, for nodes and for edges", "why_tests_cant": "all combinations of settings", "anchors": ["abstract/styling/NodeStyle.py:NodeStyle", "abstract/styling/EdgeStyle.py:EdgeStyle"]}
{"id": "C79", "title": "Styles are shared only if style objects are", "statement": "As long as no style object is given to a call, no two nodes and no two edges have the same style object, so that a change of one style changes one node or one edge.", "quantifier": "every history of calls, failing ones included: making, copying, filtering, appending, adding, styling and rendering graphs, with styles given as dictionaries", "why_tests_cant": "all histories of calls", "anchors": ["abstract/_GraphWithoutDisplay.py:__graph__", "abstract/_GraphWithoutDisplay.py:append", "abstract/_GraphWithoutDisplay.py:add", "abstract/_BasicGraph.py:copy", "abstract/Node.py:Node.style"]}
{"id": "C80", "title": "Styling a graph does not change another graph's picture", "statement": "stylize and render, whether they succeed or raise, change no attribute and no look of a node or edge outside of the graph, so the Graphviz source of every other graph is the same before and after.", "quantifier": "every history of calls in which no style object is given, every stylist, every setting, every other graph", "why_tests_cant": "all histories and pairs of graphs, every point at which styling may fail", "anchors": ["abstract/_GraphWithoutDisplay.py:stylize", "abstract/_GraphWithoutDisplay.py:render", "abstract/_GraphWithoutDisplay.py:get_graphviz_str"]}
{"id": "C81", "title": "A copy looks like its original", "statement": "copy() gives a graph whose nodes and edges have the styles of the originals, in style objects of their own; what was there before keeps its look.", "quantifier": "every history of calls, every graph", "why_tests_cant": "all graphs and histories", "anchors": ["abstract/_BasicGraph.py:copy", "abstract/styling/EdgeStyle.py:__getstate__", "abstract/styling/EdgeStyle.py:__setstate__", "abstract/styling/NodeStyle.py:__setstate__"]}
{"id": "C82", "title": "Renaming a node or edge keeps the graph usable", "statement": "After node.raw_id = x or edge.raw_id = x, for an x that is not in use, the graph finds the node under its new name, its edges are still there and can be disconnected, and the node can be removed.", "quantifier": "every history of calls, every node, every edge, every new name", "why_tests_cant": "all graphs, nodes and names", "anchors": ["abstract/_GraphObj.py:raw_id", "abstract/_BasicGraph.py:get_node", "abstract/_BasicGraph.py:remove_node", "abstract/_BasicGraph.py:disconnect", "abstract/Edge.py:id"]}
{"id": "C83", "title": "Making an Edge object is connecting two nodes", "statement": "Edge(graph=g, start=a, end=b, id=i) does what g.connect(a, b, id=i) does: it adds an edge, refuses an id that is in use between a and b, refuses nodes of other graphs, and disturbs no other edge.", "quantifier": "every history of calls, every pair of nodes, every id", "why_tests_cant": "all graphs, pairs of nodes and ids", "anchors": ["abstract/Edge.py:__init__", "abstract/_BasicGraph.py:connect"]}
{"id": "C84", "title": "render(path) saves the picture at that path", "statement": "render(path='d/x.svg', height=h, width=w) writes the file d/x.svg, in the format that the extension names, with the picture of the styled graph in the size asked for; it returns what render() without a path returns. get_svg, get_html and notebooks show the picture of that text, as often as they are asked to.", "quantifier": "every graph made by a history of calls, every path, height, width, direction and padding, whatever Graphviz and IPython do", "why_tests_cant": "all paths, sizes and graphs", "anchors": ["abstract/_GraphWithoutDisplay.py:render", "abstract/_GraphWithoutDisplay.py:get_graphviz_source", "abstract/Graph.py:get_svg", "abstract/Graph.py:get_html", "abstract/Graph.py:_repr_html_"]}
{"id": "C85", "title": "Every graph can be drawn", "statement": "get_graphviz_str returns a source for every graph made with Graph(...), whatever its nodes, edges, labels and display settings.", "quantifier": "every reachable graph, all display settings and arguments", "why_tests_cant": "all graphs, settings and arguments", "anchors": ["abstract/_GraphWithoutDisplay.py:get_graphviz_str", "abstract/_GraphWithoutDisplay.py:get_graphviz_header", "abstract/Node.py:get_graphviz_str", "abstract/Edge.py:get_graphviz_str"]}
{"id": "C86", "title": "Style objects survive copy.deepcopy and pickle", "statement": "copy.deepcopy(style) and pickle give, for every node style and edge style, a style object of its own that shows the same Graphviz attributes and can be used like the original: copied, inverted, recoloured. This holds in particular for the styles of the edges of a copied graph.", "quantifier": "every style object, every graph made by a session", "why_tests_cant": "all style objects and all histories that make them", "anchors": ["abstract/styling/NodeStyle.py:__getstate__", "abstract/styling/NodeStyle.py:__setstate__", "abstract/styling/EdgeStyle.py:__getstate__", "abstract/styling/EdgeStyle.py:__setstate__", "abstract/styling/EdgeStyle.py:copy", "abstract/_BasicGraph.py:copy"]}
{"id": "C87", "title": "A style object can be the style of the whole graph", "statement": "Graph(node_style=NodeStyle(...)) and Graph(edge_style=EdgeStyle(...)), which is what the documentation of the constructor asks for, give a graph that can be styled and rendered, all of whose nodes or edges look like the given style.", "quantifier": "every graph, every style object, all other settings", "why_tests_cant": "all graphs and settings", "anchors": ["abstract/_GraphWithoutDisplay.py:__init__", "abstract/_GraphWithoutDisplay.py:stylize", "abstract/styling/NodeStyle.py:complement", "abstract/styling/EdgeStyle.py:complement"]}
{"id": "C88", "title": "Inverting a style inverts its colours", "statement": "invert_colours() of a node or edge style returns the style one gets by giving the inverted colours instead of the colours it was given; nothing else about it changes.", "quantifier": "every style object, however it was made and changed", "why_tests_cant": "all combinations of given and derived colours and of later assignments", "anchors": ["abstract/styling/NodeStyle.py:invert_colours", "abstract/styling/NodeStyle.py:fill_colour", "abstract/styling/NodeStyle.py:copy", "abstract/styling/EdgeStyle.py:invert_colours", "abstract/styling/EdgeStyle.py:copy"]}
{"id": "C89", "title": "node.remove_edges() isolates the node and nothing else", "statement": "node.remove_edges() on a node of a graph succeeds: afterwards the node is still in the graph and has no edges; every other node lists the same edges in the same order without those that started or ended at the node; those edges report no start, end and graph; nothing else changes, and the graph can be used like one built by the other calls.", "quantifier": "every graph reachable by public calls, every node of it, including self-loops and parallel edges", "why_tests_cant": "all histories and all shapes of the neighbourhood; the loop removes edges while the edges it comes from change", "anchors": ["abstract/Node.py:remove_edges", "abstract/Node.py:edges", "abstract/Edge.py:remove_self"]}
{"id": "C90", "title": "The public methods for one end of an edge keep the graph consistent", "statement": "append_outward_edge, append_inward_edge, remove_outward_edge and remove_inward_edge of Node leave a graph in which an edge is listed at both of its ends or at neither, and which can be changed further without errors.", "quantifier": "every graph reachable by public calls, every edge of it, every node of it", "why_tests_cant": "all histories and all edges", "anchors": ["abstract/Node.py:append_outward_edge", "abstract/Node.py:append_inward_edge", "abstract/Node.py:remove_outward_edge", "abstract/Node.py:remove_inward_edge", "abstract/_BasicGraph.py:connect", "abstract/_BasicGraph.py:disconnect"]}
{"id": "C91", "title": "Painting with a given style keeps its settings", "statement": "stylize_with_pensieve and stylize_randomly with a node_style give every node they style the shape, shape style, font, text size, opacity and lighter_fill of that style, in the colours of the scheme for the first nodes; styles that were there before, the given style included, stay as they were. Without node_style they do what stylize does.", "quantifier": "every graph reachable by public calls, every given style, every ratio, every shuffle", "why_tests_cant": "all graph shapes, all combinations of settings", "anchors": ["abstract/styling/stylize_with_pensieve.py:stylize_with_pensieve", "abstract/styling/stylize_randomly.py:stylize_randomly", "abstract/styling/inherit_style.py:inherit_style", "abstract/styling/NodeStyle.py:reset_colours"]}
{"id": "C92", "title": "Children resemble their parents, also with a given style", "statement": "With a node_style, as without, the colour of a node with parents off loops is made from the colours of its parents.", "quantifier": "every graph reachable by public calls, every given style", "why_tests_cant": "all graph shapes and colours", "anchors": ["abstract/styling/stylize_with_pensieve.py:stylize_with_pensieve", "abstract/styling/inherit_style.py:inherit_style"]}
{"id": "C93", "title": "Painting with a given edge style keeps its settings", "statement": "stylize_with_pensieve and stylize_randomly with an edge_style give every edge they style the font, text size, opacity, line width, arrow size and label style of that style, in the darkened colour of the node the edge starts at.", "quantifier": "every graph reachable by public calls, every given edge style, also one obtained by deepcopy", "why_tests_cant": "all orders of edges and all values of edges: each edge is made from the one before", "anchors": ["abstract/styling/stylize_with_pensieve.py:stylize_with_pensieve", "abstract/styling/stylize_randomly.py:stylize_randomly", "abstract/styling/stylize_edges_based_on_nodes.py:stylize_edges_based_on_nodes", "abstract/styling/EdgeStyle.py:copy"]}
{"id": "C94", "title": "Nodes that form a loop are drawn differently", "statement": "README: nodes that form a loop are coloured differently (red circles with yellow interiors).", "quantifier": "every graph with a loop", "why_tests_cant": "all graph shapes", "anchors": ["README.md", "abstract/styling/stylize_with_pensieve.py:stylize_with_pensieve"]}
{"id": "C95", "title": "node_styles and edge_styles list exactly what has a style", "statement": "graph.node_styles has one entry for each node for which has_style is True, with its name and its style; graph.edge_styles one for each edge, with its id and its style; neither raises. After the default stylist has run on a graph in which every node is reached by the colours, every node and every edge is listed.", "quantifier": "every graph reachable by public calls", "why_tests_cant": "all histories of adding, removing and styling", "anchors": ["abstract/_GraphWithoutDisplay.py:node_styles", "abstract/_GraphWithoutDisplay.py:edge_styles", "abstract/_GraphObj.py:has_style"]}
{"id": "C96", "title": "What is done with one graph changes nothing of another", "statement": "A call on one graph (adding, connecting, removing, setting values and styles, appending, adding graphs, copying, filtering, stylize, render), whether it succeeds or raises, leaves the nodes, edges, values, styles and settings of every other graph as they were, and the Graphviz source of the other graph stays the same text. Hence the same holds after any number of such calls.", "quantifier": "every session of calls on any number of graphs, every call in it, every other graph", "why_tests_cant": "all interleavings of calls on several graphs, including failing calls and shared style objects", "anchors": ["abstract/_GraphWithoutDisplay.py:stylize", "abstract/_GraphWithoutDisplay.py:get_graphviz_str", "abstract/_GraphWithoutDisplay.py:append", "abstract/_BasicGraph.py:copy", "abstract/Node.py:style"]}
{"id": "C97", "title": "From a session to its picture", "statement": "After any history of calls, if render returns, the source it returns shows every node of the graph once under its name, in the order of graph.nodes, and one arrow for each edge from its start to its end; with permission to overwrite styles, rendering again gives the same source; and the source does not change through calls on other graphs.", "quantifier": "every session of calls followed by render", "why_tests_cant": "all histories, including failing calls, before and after the picture is drawn", "anchors": ["abstract/_GraphWithoutDisplay.py:render", "abstract/_GraphWithoutDisplay.py:stylize", "abstract/_GraphWithoutDisplay.py:get_graphviz_str"]}
{"id": "C98", "title": "A call that raises changes nothing", "statement": "connect, add_node and append are all or nothing: if such a call raises, every node and edge is as it was before.", "quantifier": "every reachable state, every argument, every point at which the call can raise", "why_tests_cant": "every error path of calls that make several changes, over all states", "anchors": ["abstract/_BasicGraph.py:connect", "abstract/_BasicGraph.py:add_node", "abstract/_GraphWithoutDisplay.py:append"]}
{"id": "C99", "title": "connect changes reachability by exactly the new edge", "statement": "After graph.connect(s, t) returns, the graph has the same nodes, and x is an ancestor of y (y a descendant of x) if it was before, or if x is s or an ancestor of s and y is t or a descendant of t; in no other case. A node is in a loop if it was before, or if it lies both at or above s and at or below t. In particular a graph without loops has no loops after connect exactly if s is not t and not a descendant of t, so asking get_descendants before connecting keeps a graph free of loops.", "quantifier": "every reachable state, every two nodes, every arguments of connect, new or existing edge", "why_tests_cant": "all graphs, all positions of the new edge in them and all pairs of nodes", "anchors": ["abstract/_BasicGraph.py:connect", "abstract/_BasicGraph.py:get_ancestors", "abstract/_BasicGraph.py:get_descendants", "abstract/_BasicGraph.py:is_node_in_loop", "abstract/_BasicGraph.py:loop_nodes"]}
{"id": "C100", "title": "Deleting takes away exactly the paths through what was deleted", "statement": "After graph.remove_node(v) the ancestors, descendants and loops of the other nodes are those given by the paths of the old graph that avoid v; after edge.disconnect() or edge.remove_self() they are those given by the paths that do not use the edge. Removing one of two parallel edges changes none of them, and no deletion gives a node a new ancestor, descendant or loop.", "quantifier": "every reachable state, every node or edge deleted, every remaining node", "why_tests_cant": "all graphs with all ways around the deleted node or edge", "anchors": ["abstract/_BasicGraph.py:remove_node", "abstract/Edge.py:disconnect", "abstract/Edge.py:remove_self", "abstract/_BasicGraph.py:get_ancestors", "abstract/_BasicGraph.py:get_descendants", "abstract/_BasicGraph.py:is_node_in_loop"]}
{"id": "C101", "title": "Adding and removing again leaves no trace", "statement": "If connect makes a new edge and it is disconnected (or removes itself) right away, every node, every graph and every other edge is as before the two calls and no warning is added. If add_node makes a new node and it is removed right away, every other node, every edge and every graph is as before, except that the index counter of the graph went up by one.", "quantifier": "every reachable state, all arguments that make a new edge or node", "why_tests_cant": "the equality is of the whole state, for every state and every argument", "anchors": ["abstract/_BasicGraph.py:connect", "abstract/_BasicGraph.py:add_node", "abstract/_BasicGraph.py:remove_node", "abstract/Edge.py:disconnect", "abstract/Edge.py:remove_self"]}
{"id": "C102", "title": "The queries depend only on names and on which name leads to which", "statement": "If two graphs (of one session or of two) have nodes of the same names and edges from and to the same names, then get_ancestors, get_descendants, get_siblings and get_spouses of nodes with the same name, absolute_roots and leaves give the same names, is_node_in_loop and are_nodes_in_same_loop the same answers, and roots as many nodes, each being the same or in a loop with the one chosen in the other graph. Similar graphs, and a graph and its copy, are such graphs.", "quantifier": "every two reachable graphs of the same shape, every node", "why_tests_cant": "all pairs of graphs, in all orders of nodes and edges and with any number of parallel edges", "anchors": ["abstract/_BasicGraph.py:get_ancestors", "abstract/_BasicGraph.py:get_descendants", "abstract/_BasicGraph.py:get_siblings", "abstract/_BasicGraph.py:get_spouses", "abstract/_BasicGraph.py:roots", "abstract/_BasicGraph.py:absolute_roots", "abstract/_BasicGraph.py:leaves", "abstract/_BasicGraph.py:is_similar_to"]}
{"id": "C103", "title": "The order in which a graph is described", "statement": "Two dictionaries that list the same nodes and the same edges in different orders give, through from_dict, graphs that are similar to each other; if edges are repeated or styled, still graphs of the same shape. from_lists of the same rows in different orders gives graphs of the same shape; they are not similar if some row number has different ends in the two, as the row number is part of the edge id.", "quantifier": "all dictionaries with distinct names, all permutations of their nodes and edges; all lists of rows and their permutations", "why_tests_cant": "all permutations of all descriptions", "anchors": ["abstract/_GraphWithoutDisplay.py:from_dict", "abstract/_GraphWithoutDisplay.py:append", "abstract/_GraphWithoutDisplay.py:from_lists", "abstract/_BasicGraph.py:is_similar_to"]}
{"id": "C104", "title": "Only the removing calls take anything away, only the adding calls put anything in", "statement": "After any sequence of calls, failing ones included, that contains no remove_node, disconnect or remove_self, every graph that was there has its nodes, names, edges and ids as before, in the same order, with new ones at the end only; whatever was an ancestor, a descendant or on a loop still is. After any sequence that contains no add_node and no connect, every graph has only nodes and edges it had, in the same order, and no new ancestors, descendants or loops. After a sequence with none of these calls (values, labels, styles, parameters, freezing, copies, new graphs) its nodes, names, edges and ids are the same. The same goes for sequences of all public calls, where append counts as adding: append, +, filter, copy, stylize, render and making graphs take nothing away from any graph, even if they raise half-way, and all of them but append put nothing into any graph there is.", "quantifier": "every reachable state, every graph in it, every sequence of calls of the given kinds with any arguments, returning or raising", "why_tests_cant": "sequences of any length, with every combination of arguments and failures", "anchors": ["abstract/_BasicGraph.py:add_node", "abstract/_BasicGraph.py:connect", "abstract/_BasicGraph.py:disconnect", "abstract/_BasicGraph.py:remove_node", "abstract/Edge.py:remove_self", "abstract/_GraphWithoutDisplay.py:append", "abstract/_GraphWithoutDisplay.py:__add__", "abstract/_BasicGraph.py:filter", "abstract/_GraphWithoutDisplay.py:stylize", "abstract/_GraphWithoutDisplay.py:render"]}
{"id": "C105", "title": "The order of the calls that build a graph", "statement": "After a sequence of add_node and connect calls by name that all return, a graph has exactly the names it had and those given to add_node, and exactly the edge ids it had and those given to connect. So two sequences of the same calls in different orders, if all calls return in both, give as many nodes, the same names and the same edge ids, and queries see no difference other than order.", "quantifier": "every reachable state, every graph, all sequences of building calls and their rearrangements, with or without repetitions", "why_tests_cant": "all rearrangements of sequences of any length", "anchors": ["abstract/_BasicGraph.py:add_node", "abstract/_BasicGraph.py:connect"]}
{"id": "C106", "title": "The order of deletions does not matter", "statement": "After any sequence of remove_node, disconnect and remove_self calls, failing ones included, every graph has exactly the nodes that none of the calls names and exactly the edges that no call names and none of whose ends is named, in the order they had. Hence doing the same deletions in another order, or some of them twice, leaves every graph with the same nodes, edges and paths, whichever of the calls raise.", "quantifier": "every reachable state, every graph, every sequence of deleting calls with any arguments, every reordering and repetition of it", "why_tests_cant": "all orders of sequences of any length, over graphs of any size", "anchors": ["abstract/_BasicGraph.py:remove_node", "abstract/_BasicGraph.py:disconnect", "abstract/Edge.py:remove_self", "abstract/Node.py:remove_edges"]}
{"id": "C107", "title": "Graphs that look alike behave alike", "statement": "What a call by node name or edge id raises, and what the graph looks like afterwards, is a function of what the graph looked like before: its options, its nodes in order, its edges in order, and the values, labels, tooltips, parameters, frozen flags and presence of styles on them. Nothing else counts: not the identities of the objects, not how the graph came to be, not the calls made on other graphs in between. Two graphs that look alike therefore raise the same and still look alike after the same calls, in one program or in two; and a copy, under calls that give no style, behaves exactly like its original.", "quantifier": "every reachable state, every graph, every sequence of add_node, connect, remove_node, disconnect, remove_self and attribute setters with any arguments, every interleaving with legal calls not on that graph", "why_tests_cant": "all graphs, all histories that lead to them, all call sequences and all interleavings", "anchors": ["abstract/_BasicGraph.py:add_node", "abstract/_BasicGraph.py:connect", "abstract/_BasicGraph.py:remove_node", "abstract/_BasicGraph.py:disconnect", "abstract/_GraphObj.py:value", "abstract/_GraphObj.py:style", "abstract/_GraphWithoutDisplay.py:copy"]}
{"id": "C108", "title": "Graphs that look alike answer alike, exactly and in order", "statement": "If two graphs, in one program or in two, have the same nodes in the same order and the same edges in the same order, with the same texts on them, then every query by name gives the same answer on both: the same nodes and edges, in the same order, grouped by the same distances, or the same exception, including when the stack is too small. This covers nodes, edges, children, parents, siblings, spouses, ancestors, descendants, loops and roots; and, if no node lost its graph by being removed and added back, also leaves, absolute roots and the printed tree, character by character. It goes on to hold if the same calls are made to both. A copy answers like its original.", "quantifier": "all pairs of reachable states, all graphs in them, all node names, all stack limits, all later interleavings of calls", "why_tests_cant": "ranges over all pairs of programs that build the same graph in different ways; order of answers could depend on history in any of them", "anchors": ["abstract/_BasicGraph.py:get_descendants", "abstract/_BasicGraph.py:get_ancestors", "abstract/_BasicGraph.py:get_children", "abstract/_BasicGraph.py:roots", "abstract/_BasicGraph.py:leaves", "abstract/_BasicGraph.py:get_tree_str", "abstract/_BasicGraph.py:copy", "abstract/Node.py:children"]}
{"id": "C109", "title": "Graphs that look alike are drawn alike", "statement": "If two graphs, in one program or in two, have the same nodes, edges, texts and options, the same settings of the picture, and nodes of the same name and edges of the same id show the same style, then the text given to Graphviz is the same, character by character. stylize, render, get_svg and get_html return, save and raise the same on both, one after the other, with a shuffle from the same seed, and the graphs go on to look alike after each of them.", "quantifier": "all pairs of reachable states, all graphs in them, all drawing arguments, recursion limits, shuffles and sequences of drawing calls", "why_tests_cant": "ranges over all pairs of programs that build the same graph in different ways, and over all sequences of drawing calls; colours are inherited along arbitrary graphs", "anchors": ["abstract/_GraphWithoutDisplay.py:stylize", "abstract/_GraphWithoutDisplay.py:render", "abstract/Graph.py:get_svg", "abstract/Graph.py:get_html", "abstract/styling/stylize_with_pensieve.py:stylize_with_pensieve", "abstract/styling/inherit_style.py:inherit_style"]}
{"id": "C110", "title": "Nodes compare in the order they are listed", "statement": "Of two nodes of a graph, the one listed first is the smaller one under <, <=, >, >=; sorting any of the nodes gives the order of the list of nodes; and get_child_rank is the number of children of the parent that are listed before the node.", "quantifier": "every session of public calls, every graph, all pairs and all lists of its nodes", "why_tests_cant": "the indexes that are compared and the order of the list come from the whole history of additions and removals", "anchors": ["abstract/Node.py:__lt__", "abstract/_BasicGraph.py:nodes", "abstract/_BasicGraph.py:add_node", "abstract/Node.py:get_child_rank"]}
{"id": "C111", "title": "A style shows what it was given and derives the rest", "statement": "A new NodeStyle writes exactly the attributes that are not None; every colour given to it is the one shown; the main colour is otherwise the fill or the border colour, the fill is the main colour lightened by a half and the border the main colour darkened by a sixth (the other way round with lighter_fill=False), the text the gray farthest from the fill. A new EdgeStyle shows its colour, or else that of its text, and the text its colour, or else that of the edge. A colour assigned later is shown and leaves the others alone; after reset_colours the others follow from the next main colour.", "quantifier": "all arguments of both constructors, all colours, every colour library", "why_tests_cant": "all combinations of given and missing arguments, for all colours", "anchors": ["abstract/styling/NodeStyle.py:__init__", "abstract/styling/NodeStyle.py:colour", "abstract/styling/NodeStyle.py:reset_colours", "abstract/styling/NodeStyle.py:get_graphviz_str", "abstract/styling/EdgeStyle.py:__init__", "abstract/styling/EdgeStyle.py:colour", "abstract/styling/EdgeStyle.py:text_colour"]}
{"id": "C112", "title": "append and the constructor do what the dictionary says, entry by entry", "statement": "append(dictionary) sets the options the dictionary mentions, adds its nodes and connects its edges one by one as add_node and connect would, and stops at the first exception; everything done until then stays. It raises TypeError for a label that is no string, KeyError for missing nodes or edges and for settings of edges it does not list, ValueError for edges of the wrong length, AttributeError for settings of a graph without display attributes. A new graph has the options it was given and nothing else. What any program's calls on a graph, append among them, raise, and what the graph looks like at the end, is a function of these calls alone, whatever else the program does with other graphs in between, drawing included.", "quantifier": "all dictionaries, all graphs of all sessions, all programs interleaving calls on the graph with any other calls", "why_tests_cant": "all dictionaries, every place where one can fail, and all interleavings with other calls", "anchors": ["abstract/_GraphWithoutDisplay.py:append", "abstract/_GraphWithoutDisplay.py:__init__", "abstract/_BasicGraph.py:add_node", "abstract/_BasicGraph.py:connect"]}
{"id": "C113", "title": "Independent calls commute, whatever the schedule", "statement": "Two calls on a graph that are about different nodes and different edges, neither adding or removing an end of an edge that the other makes, can be made in either order: each raises the same exception or none, and the graph gets the same nodes and edges with the same things written on them. Two removals of different nodes commute although they may both delete an edge. If the calls of two parties on one graph are independent of each other, then in every interleaving each party gets the exceptions it would get alone, and the graph at the end is the same up to the order in which nodes and edges are listed.", "quantifier": "all reachable states, all pairs of independent calls (adding, connecting, removing, disconnecting, writing values, labels, styles, parameters, freezing), all interleavings of two call sequences of any length", "why_tests_cant": "all schedules of call sequences of any length, from every state", "anchors": ["abstract/_BasicGraph.py:add_node", "abstract/_BasicGraph.py:connect", "abstract/_BasicGraph.py:remove_node", "abstract/_BasicGraph.py:disconnect", "abstract/Node.py:Node", "abstract/Edge.py:Edge"]}
{"id": "C114", "title": "Settings for single nodes and edges must be for ones the graph has, and removal leaves them behind", "statement": "A graph can be styled, and so rendered, only if every entry of its node_styles and node_colours is for a node it has and every entry of its edge_styles and edge_colours is for an edge it has; if the first such entry is not, and nothing went wrong before, the exception is KeyError. Removing a node or an edge does not remove its entries: a graph that was given a style or a colour for a node, or for an edge starting or ending there, can no longer be styled or rendered once the node is removed, and the same holds for an edge that is disconnected or removes itself.", "quantifier": "all reachable graphs with any settings, stylists, orders of shuffling and drawing arguments; all nodes and edges removed", "why_tests_cant": "all graphs, all settings and every way through the styling code that could have raised or overlooked the missing node before", "anchors": ["abstract/_GraphWithoutDisplay.py:stylize", "abstract/_BasicGraph.py:remove_node", "abstract/_BasicGraph.py:disconnect", "abstract/Graph.py:render"]}
{"id": "C115", "title": "What the distance dictionary of descendants is, exactly", "statement": "get_descendants with distance=True returns the notes of one depth-first search, the same whose order get_descendants with distance=False returns: the keys are 1, 2, 3 and so on without gaps; under 1 are all nodes found one step away; under k >= 2 not all nodes found k steps away, but only those entered from the same node as the last one of them. So a node that is found is in the dictionary exactly if it was found one step away or no node of its depth was found later from elsewhere; it is listed once, under the depth it was found at. The same holds for get_descendants and get_ancestors of arbitrary objects without a depth limit.", "quantifier": "all reachable graphs, all nodes; all object graphs, finite or not, whenever the call returns", "why_tests_cant": "all graphs, cyclic and shared ones included, of any depth", "anchors": ["abstract/_BasicGraph.py:get_descendants", "abstract/_BasicGraph.py:_get_descendants", "abstract/get_descendants.py:get_descendants", "abstract/get_ancestors.py:get_ancestors"]}
{"id": "C116", "title": "Ancestors are listed in the order in which a walk meets them", "statement": "get_ancestors(x) lists the ancestors in the order in which they are first met by the walk that goes through the parents of x in their order and, on meeting a node it has not met before, goes through that node's parents before going on. In particular the first entry is the first parent of x.", "quantifier": "every graph history, every node, every stack limit under which the call returns", "why_tests_cant": "The order depends on the whole graph, including cycles and nodes met along several paths; a test can only fix the order in a few graphs.", "anchors": ["abstract/_BasicGraph.py: BasicGraph._get_ancestors, BasicGraph.get_ancestors"]}
{"id": "C117", "title": "What a depth limit leaves, exactly", "statement": "With max_depth (max_height) d >= 1, get_descendants (get_ancestors) of an object lists exactly what the depth-first search meets that goes down d levels and never goes into an object twice, each where it was met first; with d <= 0 it lists nothing. A limit of at least the number of objects gives the same list and the same distances as no limit.", "quantifier": "every object graph, finite or not, every object, every limit, every stack limit under which the call returns", "why_tests_cant": "What is left out depends on the order in which paths are tried in the whole object graph; no finite set of graphs settles it, and the comparison with the unlimited call ranges over all finite graphs.", "anchors": ["abstract/get_descendants.py: get_descendants", "abstract/get_ancestors.py: get_ancestors"]}
{"id": "C118", "title": "When a graph can be styled and drawn", "statement": "Where overwriting styles is allowed and the settings make sense (there is a colour, a stylist, only known attributes, a shape that is a string, no unstyled node on a cycle with a parent on none, no unstyled edge whose value cannot be multiplied), stylize() succeeds exactly if every style and colour given for a single node or edge is for a node or an edge that the graph has; render() succeeds exactly if, besides, the label has a place.", "quantifier": "every graph history, every combination of settings, every shuffle, every stack limit that is at least the number of nodes, all arguments of render", "why_tests_cant": "Nine steps, each of which can raise in states the earlier ones leave, have to go through for every graph and every combination of settings; tests try a few of them.", "anchors": ["abstract/_GraphWithoutDisplay.py: GraphWithoutDisplay.stylize, GraphWithoutDisplay.render", "abstract/styling/stylize_with_pensieve.py: stylize_with_pensieve", "abstract/styling/stylize_randomly.py: stylize_randomly"]}
{"id": "C119", "title": "When a new graph can be styled under the default setting", "statement": "Where overwriting styles is not allowed, which is the default, a graph whose nodes and edges have no styles yet and whose settings make sense can be styled exactly if styles are given only for single nodes that it has, no style is given for a single edge, no colour for a single node or edge, and no style for all nodes together with the random stylist (unless there are no nodes); it can be drawn exactly if, besides, its label has a place.", "quantifier": "every graph history, every combination of settings, every shuffle, every stack limit that is at least the number of nodes, all arguments of render", "why_tests_cant": "Which settings exclude each other depends on which of nine steps assigns a style first, for every graph and every combination of settings; tests try a few of them.", "anchors": ["abstract/_GraphWithoutDisplay.py: GraphWithoutDisplay.stylize, GraphWithoutDisplay.render", "abstract/Node.py: Node.style", "abstract/Edge.py: Edge.style"]}
{"id": "C120", "title": "What filter leaves of reachability", "statement": "In the graph that filter returns, loops are kept as a whole. With filter_type='exclude', and with 'include' around a single node, a kept name leads to a kept name exactly if it did before, so that ancestors and descendants are the former ones that were kept. With 'include' around several nodes this holds for all paths to a given node or an ancestor of one and all paths from a given node or a descendant of one; other paths may be lost. In all cases a path survives exactly if all its nodes are kept.", "quantifier": "every graph history, every list of nodes, every direction and filter type, every call of filter that returns, all pairs of names", "why_tests_cant": "Whether a path survives depends on every node on every path between two nodes; the statement ranges over all graphs, choices of nodes and pairs.", "anchors": ["abstract/_BasicGraph.py: BasicGraph.filter, BasicGraph.get_ancestors, BasicGraph.get_descendants"]}
{"id": "C121", "title": "The picture tells what the graph is", "statement": "If two graphs have the same Graphviz source, or render returns the same for both, then they have the same nodes and edges in the same order as far as names, texts, tooltips and looks go, the same names lead to the same names, both are strict or both are not, and background, ordering and direction are the same. Different graphs have different pictures.", "quantifier": "every two graphs in every two states (or sessions), all drawing arguments", "why_tests_cant": "Injectivity is a statement about all pairs of graphs; a test compares a few of them.", "anchors": ["abstract/_GraphWithoutDisplay.py: get_graphviz_str, render", "abstract/Node.py: get_graphviz_str", "abstract/Edge.py: get_graphviz_str"]}
{"id": "C122", "title": "The tree string tells what the graph is", "statement": "If get_tree_str returns the same text for two graphs, then their roots have the same names in the same order, every node has a namesake in the other graph whose children have the same names in the same order, and so the same names lead to the same names.", "quantifier": "every two graphs in every two histories", "why_tests_cant": "Injectivity is a statement about all pairs of graphs; loops and shared parts are abbreviated in the text, and whether nothing is lost depends on every path.", "anchors": ["abstract/_BasicGraph.py: BasicGraph.get_tree_str", "abstract/Node.py: Node.get_tree_str"]}
{"id": "C123", "title": "How deep a traversal recurses", "statement": "get_descendants and get_ancestors, of a graph and of arbitrary objects, return if the recursion limit leaves more levels than the deepest node of the depth-first search lies below the start, and raise RecursionError if it does not; in particular they raise whenever some relative is further away than the limit allows, however small the graph's other dimensions are.", "quantifier": "every reachable graph, every node of it, every recursion limit", "why_tests_cant": "A limit is hit only by graphs of a certain shape; a test shows one shape and one limit, and which depth counts (the search's, not the distance) is a statement about all of them.", "anchors": ["abstract/_BasicGraph.py:_get_ancestors", "abstract/_BasicGraph.py:_get_descendants", "abstract/get_descendants.py:get_descendants", "abstract/get_ancestors.py:get_ancestors"]}
{"id": "C124", "title": "Filtering again", "statement": "Calls of filter compose as sets do. Filtering for the same nodes again changes nothing; filtering for some nodes and filtering them out share the nodes among each other; filtering for two lists keeps what filtering for one or the other keeps; filtering for one node and then for another keeps what is near to both; excluding nodes in two calls is excluding them in one; and what was excluded is unknown to the result, so naming it raises.", "quantifier": "every reachable unstyled graph, every list of names, all directions", "why_tests_cant": "Each is an equation between results for every graph and every list of nodes; the second call works on the paths the first has left, and whether any was lost depends on the whole graph.", "anchors": ["abstract/_BasicGraph.py:filter"]}
{"id": "C125", "title": "A text is traversed in its order", "statement": "In the graph built from an indented text, the descendants of the root are the nodes of the lines, each once, and the tree string is one outline headed by the root in which every line of the text is shown once, without a star, one level deeper than its indentation level. Both list the lines in the order of the text exactly when no blank line is directly followed by a deeper line.", "quantifier": "every text the parser accepts, every indentation, every root label, every state the graph is built in", "why_tests_cant": "The order of a depth-first search depends on the whole nesting of the text; that blank lines spoil it only before deeper lines is a statement about all texts.", "anchors": ["abstract/_BasicGraph.py:from_indented_text", "abstract/parse_indentations_function.py", "abstract/_BasicGraph.py:get_descendants", "abstract/_BasicGraph.py:get_tree_str"]}
{"id": "C126", "title": "A node can be given by its name or as an object", "statement": "Wherever a method of a graph takes a node, a name and a node object of that name are interchangeable, even an object of another graph: the answer, the exception and the effect are the same. A method raises because of such an argument exactly if get_node does, with the same exception (KeyError for a name the graph does not have, TypeError for anything that is neither a name nor a node), and then nothing has changed; in every other case every question gets an answer. The only exception is get_node_name, which returns the name of any node object.", "quantifier": "every state, every graph, every argument, 21 questions about one node, are_nodes_in_same_loop, connect, remove_node and filter", "why_tests_cant": "It compares all pairs of arguments in all states for all methods; that every question about a node is answered depends on the consistency of the dictionaries after every history of calls.", "anchors": ["abstract/_BasicGraph.py:get_node", "abstract/_BasicGraph.py:get_node_name", "abstract/_BasicGraph.py:get_ancestors", "abstract/_BasicGraph.py:connect", "abstract/_BasicGraph.py:remove_node", "abstract/_BasicGraph.py:filter"]}
{"id": "C127", "title": "The tree string of a node shows its descendants in the order of get_descendants", "statement": "node.get_tree_str() draws the node and everything below it depth first, children in order; a node that was expanded before is marked and not expanded again. Leaving out what was shown before, its lines are the node and then get_descendants(node) in order; there is one line for the node and one for every child of each of these nodes. It returns exactly if the stack has more frames than its deepest line is indented, and raises RecursionError otherwise; more frames than nodes are always enough, and where it returns get_descendants returns too. graph.get_tree_str() needs, besides what finding the roots needs, exactly the same of all its lines.", "quantifier": "every state in which the nodes belong to their graph, every node, every stack size", "why_tests_cant": "It relates two recursions with different bookkeeping over all graphs, including cyclic ones with repeated edges, for every stack size.", "anchors": ["abstract/Node.py:get_tree_str", "abstract/_BasicGraph.py:get_tree_str", "abstract/_BasicGraph.py:get_descendants", "abstract/_BasicGraph.py:roots"]}
{"id": "C128", "title": "The stack decides whether there is an answer, never which", "statement": "A recursive call with more stack frames does exactly what the same call with fewer frames does, unless the latter raises RecursionError: it returns the same or raises the same exception, and leaves the same behind. This holds for every question about ancestors, descendants, loops and roots, for tree strings, for the traversal of objects with and without a depth limit, for from_object, filter, stylize, render with and without a path, get_svg and get_html.", "quantifier": "every state, reachable or not, every argument, every two stack sizes, every behaviour of Graphviz and IPython", "why_tests_cant": "A test runs with one recursion limit; the claim compares all limits, for all graphs.", "anchors": ["abstract/_BasicGraph.py:_get_ancestors", "abstract/_BasicGraph.py:_get_descendants", "abstract/_BasicGraph.py:roots", "abstract/_BasicGraph.py:filter", "abstract/_BasicGraph.py:from_object", "abstract/Node.py:get_tree_str", "abstract/get_descendants.py", "abstract/styling/inherit_style.py", "abstract/_GraphWithoutDisplay.py:stylize", "abstract/_GraphWithoutDisplay.py:render", "abstract/Graph.py"]}
{"id": "C129", "title": "An indented text gives the same graph however it is indented", "statement": "from_indented_text does exactly the same - same graph, same effect on everything else, or same exception - for an outline written with another unit of blanks and tabs, other line ends and other texts at the same depths, and whether or not it is told the unit (if the depths are in order). Conversely, two texts whose graphs have edges between the same names have the same number of lines at the same levels.", "quantifier": "every outline of any length and depth, every two units, all line ends, all texts, every state in which the calls are made", "why_tests_cant": "A test compares two texts; the claim ranges over all outlines and all pairs of indentation units.", "anchors": ["abstract/_BasicGraph.py:from_indented_text", "abstract/parse_indentations_function.py"]}
{"id": "C130", "title": "Sums of several graphs do not depend on order and brackets", "statement": "g1 + g2 + ... + gn works for any number of graphs; whatever the order and the brackets, the sum has the names of all of them, each once, with the same values, and the graphs themselves keep their nodes and edges.", "quantifier": "every reachable state, any number of graphs, every bracketing and order, every set iteration order, every function for adding values", "why_tests_cant": "All sums of all lengths and bracketings over all graphs.", "anchors": ["abstract/_GraphWithoutDisplay.py:add", "abstract/_GraphWithoutDisplay.py:__add__"]}
{"id": "C131", "title": "Printing nodes and edges", "statement": "str(node) and repr(node) show the name of the node: two nodes of one graph print alike exactly if they are one node, and a node prints the same for ever, even after it has been removed. str(edge) and repr(edge) show the names of both ends; an edge prints the same as long as it is in a graph, it can always be printed, and edges that print alike have the same ends.", "quantifier": "every state reachable by any history of calls, every node and edge object, every sequence of later calls, all names", "why_tests_cant": "Whether two prints can coincide depends on all pairs of names, and whether an edge can be printed on the whole history of the edge.", "anchors": ["abstract/Node.py: Node.__str__, Node.__repr__", "abstract/Edge.py: Edge.__str__, Edge.__repr__, Edge.start, Edge.end"]}
{"id": "C132", "title": "What an object is never changes, and an edge has one life", "statement": "Whatever is called, a node keeps its name, index and tooltip, and any two nodes compare (==, !=, <, <=, >, >=) as they always did; a node whose graph is None never has a graph again, and a node never gets another graph. An edge keeps its ends, id and tooltip as long as it is in a graph; once it is in no graph it is never in one again; an edge that is in a graph at two times has been in this same graph at all times between them.", "quantifier": "every reachable state, every node and edge object, every sequence of later calls (failing ones included), every moment between two times", "why_tests_cant": "It is about all later histories of an object: one call in one order that revives an edge, moves it or renames a node would break it.", "anchors": ["abstract/Node.py: Node", "abstract/Edge.py: Edge, Edge.remove_self", "abstract/_BasicGraph.py: BasicGraph.add_node, remove_node, connect, disconnect, copy, filter"]}
