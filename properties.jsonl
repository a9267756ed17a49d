{"id": "C01", "title": "Node ids are unique and add_node never overwrites", "statement": "After any history of graph calls, add_node with an id already in the graph raises ValueError and leaves every node and edge as it was; with a fresh id (or no id) it adds exactly one node, without edges, and changes no other node.", "quantifier": "every history of add_node/add_edge/remove_edge/remove_node_by_id calls (including calls that raise) and every id", "why_tests_cant": "tests try a handful of ids on small graphs; the claim is about every reachable graph", "anchors": ["spine_json_lib/graph/dagraph.py:DAGraph.add_node"]}
{"id": "C02", "title": "generate_unique_id always terminates with an unused id", "statement": "For every graph, generate_unique_id terminates and returns a decimal id that no node of the graph carries, so add_node() without id never raises.", "quantifier": "every graph, including graphs whose user-chosen ids look like generated ones", "why_tests_cant": "the skip loop must terminate for every set of existing ids", "anchors": ["spine_json_lib/graph/dagraph.py:DAGraph.generate_unique_id"]}
{"id": "C03", "title": "Parent and child links mirror each other", "statement": "After any history of graph calls, node b is in the children of a exactly when a is in the parents of b, both ends exist in the graph, and no node is its own child.", "quantifier": "every history of graph calls, including calls that raise", "why_tests_cant": "an invariant over unbounded histories and over error paths", "anchors": ["spine_json_lib/graph/dagraph.py:DAGraph.add_edge", "spine_json_lib/graph/dagraph.py:DAGraph.remove_edge", "spine_json_lib/graph/dagraph.py:DAGraph.remove_node_by_id", "spine_json_lib/graph/spamnode.py:SpamNode._add_parent", "spine_json_lib/graph/spamnode.py:SpamNode._add_child"]}
{"id": "C04", "title": "remove_node_by_id removes the node, its incident edges and nothing else", "statement": "On a reachable graph remove_node_by_id(x) succeeds exactly when x is a node; afterwards x is gone, no node mentions x, every other edge and node is unchanged and in the same order; when x is not a node it raises ValueError and changes nothing.", "quantifier": "every reachable graph and every id", "why_tests_cant": "needs every graph shape", "anchors": ["spine_json_lib/graph/dagraph.py:DAGraph.remove_node_by_id"]}
{"id": "C05", "title": "Edge insertion and deletion are exact and atomic", "statement": "add_edge(a,b) adds exactly the edge a->b (a no-op if present) or raises and changes nothing; remove_edge(a,b) deletes exactly that edge, or raises and changes nothing when it is absent; remove_edge undoes an add_edge that created the edge.", "quantifier": "every reachable graph and every pair of ids", "why_tests_cant": "error paths on every graph state", "anchors": ["spine_json_lib/graph/dagraph.py:DAGraph.add_edge", "spine_json_lib/graph/dagraph.py:DAGraph.remove_edge"]}
{"id": "C06", "title": "get_heads_id returns exactly the nodes without parents, once each", "statement": "For every reachable graph, cyclic ones included, get_heads_id terminates and lists every node that has no parent, each exactly once, and no other node.", "quantifier": "every reachable graph", "why_tests_cant": "the traversal jumps between nodes; correctness depends on every visiting order and shape", "anchors": ["spine_json_lib/graph/dagraph.py:DAGraph.get_heads_id", "spine_json_lib/graph/dagraph.py:DAGraph.__get_nodes"]}
{"id": "C07", "title": "get_tails_id returns exactly the nodes without children, once each", "statement": "For every reachable graph, cyclic ones included, get_tails_id terminates and lists every node that has no child, each exactly once, and no other node.", "quantifier": "every reachable graph", "why_tests_cant": "as for heads", "anchors": ["spine_json_lib/graph/dagraph.py:DAGraph.get_tails_id", "spine_json_lib/graph/dagraph.py:DAGraph.__get_nodes"]}
{"id": "C08", "title": "validate reports circular references exactly for cyclic graphs", "statement": "For every reachable graph, validate().errors contains a CIRCULAR_REFS entry if and only if some node can reach itself along one or more edges.", "quantifier": "every reachable graph", "why_tests_cant": "soundness and completeness over all graphs; the search leaves stale state behind after a hit", "anchors": ["spine_json_lib/graph/graph_validator.py:GraphValidator.get_circular_dependencies", "spine_json_lib/graph/graph_validator.py:GraphValidator.validate"]}
{"id": "C09", "title": "Nodes reported as circular lie on a cycle", "statement": "Every node id listed under CIRCULAR_REFS is a node that can reach itself.", "quantifier": "every reachable graph", "why_tests_cant": "two test graphs only", "anchors": ["spine_json_lib/graph/graph_validator.py:GraphValidator.get_circular_dependencies"]}
{"id": "C10", "title": "get_all_paths returns exactly the bounded paths", "statement": "On a graph that validates, get_all_paths(a,b,m) returns every path from a to b that has at most m nodes, each exactly once, and nothing else; it raises ValueError when the graph does not validate or when a or b is not a node.", "quantifier": "every reachable graph, every pair of nodes and every maximum_depth", "why_tests_cant": "path sets grow exponentially; tests list three", "anchors": ["spine_json_lib/graph/dagraph.py:DAGraph.get_all_paths"]}
{"id": "C11", "title": "sequential_order_of_execution lists every node once, after its parents", "statement": "For every acyclic graph the returned list contains every node exactly once and each node appears after all of its parents.", "quantifier": "every reachable acyclic graph", "why_tests_cant": "two hand-picked graphs are tested; the claim is about all DAGs", "anchors": ["spine_json_lib/graph/dagraph.py:DAGraph.sequential_order_of_execution"]}
{"id": "C12", "title": "Forbidden child types never become edges", "statement": "After any history of graph calls no edge leads to a node whose type is forbidden for its parent; attempting to add one raises TypeError and changes nothing.", "quantifier": "every history and every node factory", "why_tests_cant": "an invariant over histories", "anchors": ["spine_json_lib/graph/spamnode.py:SpamNode._add_child"]}
{"id": "C13", "title": "validate reports unconnected nodes exactly", "statement": "validate().errors lists under UNCONNECTED_NODES exactly the parentless nodes whose type is not INPUT_ROOT_NODE_TYPE, and the graph has no errors at all exactly when it is acyclic and every parentless node has that type.", "quantifier": "every reachable graph", "why_tests_cant": "all graphs", "anchors": ["spine_json_lib/graph/graph_validator.py:GraphValidator.get_unconnected_nodes", "spine_json_lib/graph/graph_validator.py:GraphValidator.validate"]}
{"id": "C14", "title": "Graph ids keep bones, slots, attachments, images and iks apart", "statement": "Two spine elements get the same graph id only if they have the same type and the same name.", "quantifier": "all pairs of names and all pairs of node types", "why_tests_cant": "string suffixing must be injective for every name, including names that end in a type suffix", "anchors": ["spine_json_lib/deserializer/spine_nodes.py:SpineGraphParser._to_graph_id"]}
{"id": "C15", "title": "Removed graph nodes are reported under their original name", "statement": "Translating a graph id back to a base id returns the original name.", "quantifier": "every name and node type", "why_tests_cant": "tests never use names that contain a type suffix", "anchors": ["spine_json_lib/deserializer/spine_nodes.py:SpineGraphParser._to_base_id"]}
{"id": "C16", "title": "Spine graph round-trip keeps bones, slots and iks", "statement": "For every document from which the graph can be built, serialising the graph returns exactly the document's bones, slots and ik lists, in document order and with unchanged content.", "quantifier": "every document accepted by SpineGraphParser.create_from_json_data", "why_tests_cant": "one example file is tested", "anchors": ["spine_json_lib/deserializer/spine_nodes.py:SpineGraphParser.create_from_json_data", "spine_json_lib/deserializer/spine_nodes.py:SpineGraphParser.to_json_data"]}
{"id": "C17", "title": "Building the spine graph succeeds exactly on well-formed documents", "statement": "create_from_json_data raises for duplicate bone/slot/ik names and for a bone that is its own parent, and for no other well-typed document; the resulting graph has an edge slot->attachment and attachment->image for every attachment of every skin entry of that slot.", "quantifier": "every document", "why_tests_cant": "all documents", "anchors": ["spine_json_lib/deserializer/spine_nodes.py:SpineGraphParser.create_from_json_data", "spine_json_lib/deserializer/spine_nodes.py:SpineGraphParser.add_skin_attachments_to_slot"]}
{"id": "C18", "title": "Recursive leaf removal removes exactly the nodes that support nothing", "statement": "remove_leafs_of_type(t) terminates, never raises, and removes exactly the nodes of type t from which only removed nodes can be reached; afterwards no childless node of type t is left.", "quantifier": "every reachable graph and type", "why_tests_cant": "recursion over arbitrary graphs", "anchors": ["spine_json_lib/spine_graph_container.py:SpineGraphContainer.remove_leafs_of_type"]}
{"id": "C19", "title": "Recursive head removal removes exactly the unsupported nodes", "statement": "remove_heads_of_type(t) terminates, never raises, and removes exactly the nodes of type t all of whose parents are removed; afterwards no parentless node of type t is left.", "quantifier": "every reachable graph and type", "why_tests_cant": "recursion over arbitrary graphs", "anchors": ["spine_json_lib/spine_graph_container.py:SpineGraphContainer.remove_heads_of_type"]}
{"id": "C20", "title": "Serialisation drops exactly the defaulted attributes", "statement": "For every object of every leaf data class, to_json emits an attribute if and only if it is set to something different from the class default for that version (or is null where the default is null), with its value unchanged.", "quantifier": "every data class, every attribute value and both version families", "why_tests_cant": "25 classes times arbitrary values", "anchors": ["spine_json_lib/data/data_types/base_type.py:SpineData.to_spine_data_ignoring_default_values"]}
{"id": "C21", "title": "Loading what was serialised gives back the same object", "statement": "For every object of a leaf data class with defaults applied, parsing its serialisation and applying defaults gives an object all of whose attributes equal the original ones (Python ==), provided required attributes are non-null.", "quantifier": "every data class and every attribute value", "why_tests_cant": "arbitrary values, including values equal but not identical to defaults", "anchors": ["spine_json_lib/data/data_types/base_type.py:SpineData.to_json", "spine_json_lib/data/data_types/base_type.py:SpineData.set_default_values_from_version"]}
{"id": "C22", "title": "Serialise-load-serialise is stable", "statement": "For every document the editor accepts, with at least one slot, every slot attached to a bone and (before 3.8) no drawOrder keyframe with a null time: loading the editor's output succeeds and serialises to exactly the same output again, with the same graph and the same image references. None of the three conditions can be dropped.", "quantifier": "every accepted document", "why_tests_cant": "whole-document claim over all documents", "anchors": ["spine_json_lib/spine_animation_editor.py:SpineAnimationEditor.to_json_data", "spine_json_lib/data/spine_anim_data.py:JsonSpineAnimationData.to_json_data"]}
{"id": "C23", "title": "The editor's own output can always be reopened", "statement": "to_json_data() of any editor, after any successful operations, is a document the editor can load.", "quantifier": "every accepted document and every operation history", "why_tests_cant": "depends on states such as 'no slots left'", "anchors": ["spine_json_lib/data/spine_anim_data.py:SpineAnimationData.__init__", "spine_json_lib/spine_animation_editor.py:SpineAnimationEditor.to_json_data"]}
{"id": "C24", "title": "Unknown attributes are never silently dropped", "statement": "If loading succeeds, every attribute of every object of the document is one its class supports. If a loadable document gets one unsupported attribute in one object, at any place, loading it raises SpineParsingException naming exactly that attribute (for an attachment: an attribute other than type, see C26).", "quantifier": "every document, every object place (26 kinds of places from the bone list to the drawOrder offsets), every attribute and value", "why_tests_cant": "all positions of all unknown keys", "anchors": ["spine_json_lib/data/data_types/base_type.py:SpineData.__init__"]}
{"id": "C25", "title": "Missing required attributes are rejected", "statement": "If loading succeeds, every bone has name, every slot has name and bone, and every drawOrder offset has offset. If a required attribute is deleted from one object of a loadable document, loading it raises SpineParsingException naming exactly that attribute.", "quantifier": "every document, every object place and required attribute", "why_tests_cant": "every position", "anchors": ["spine_json_lib/data/data_types/base_type.py:SpineData.__init__", "spine_json_lib/data/data_types/draworder.py:DrawOrderTimelineOffset"]}
{"id": "C26", "title": "Attachment types are dispatched or rejected", "statement": "Loading a skin raises for any attachment whose type is not absent, mesh, linkedmesh or path; and accepts the types the library lists as supported (mesh, path, point, clipping, boundingbox, region).", "quantifier": "every attachment object", "why_tests_cant": "every type string and every attribute set", "anchors": ["spine_json_lib/data/data_types/skin.py:parse_skin_attachment_data"]}
{"id": "C27", "title": "Spine versions parse to their numeric components", "statement": "SpineVersion(v) accepts exactly strings made of two or three dot-separated integers that start with digits, yields those integers (patch 0 when absent), and raises ValueError for everything else.", "quantifier": "every string", "why_tests_cant": "all strings", "anchors": ["spine_json_lib/data/spine_version_type.py:SpineVersion.validate", "spine_json_lib/data/spine_version_type.py:SpineVersion.split_version"]}
{"id": "C28", "title": "Spine versions are ordered like version numbers", "statement": "Comparing versions with <, <=, >, >= agrees with the lexicographic order of (major, minor, patch); in particular any two versions are comparable.", "quantifier": "all pairs of versions", "why_tests_cant": "all pairs; the docstring lists three examples", "anchors": ["spine_json_lib/data/spine_version_type.py:SpineVersion.__lt__", "spine_json_lib/data/spine_version_type.py:SpineVersion.__ge__"]}
{"id": "C29", "title": "Spine version equality and ordering laws", "statement": "== holds exactly when all components agree; <= and >= are reflexive, transitive and antisymmetric; < and > are irreflexive, transitive and mirror images; != is the negation of ==.", "quantifier": "all pairs and triples of versions", "why_tests_cant": "universally quantified laws", "anchors": ["spine_json_lib/data/spine_version_type.py:SpineVersion.__eq__", "spine_json_lib/data/spine_version_type.py:SpineVersion.__le__"]}
{"id": "C30", "title": "Attributes unsupported before 3.8 are removed for older versions", "statement": "clean_unsupported_attributes(version) clears the attributes a class lists as unsupported in old versions exactly when version is older than 3.8.", "quantifier": "every version and every object", "why_tests_cant": "all versions", "anchors": ["spine_json_lib/data/data_types/base_type.py:SpineData.remove_unsupported_attributes"]}
{"id": "C31", "title": "Version-dependent defaults switch at 3.8", "statement": "An object uses the 3.8 defaults exactly when the document version is 3.8 or newer. Objects of older documents are written like those of 3.8 documents, except that the attributes that have a default only since 3.8 are written whenever they are set.", "quantifier": "every version", "why_tests_cant": "all versions", "anchors": ["spine_json_lib/data/data_types/base_type.py:SpineData.default_values"]}
{"id": "C32", "title": "Name tags are recognised exactly", "statement": "get_tags_from_name(name) returns {} for a name without a well-formed [key:value] tag, returns the numeric value of the tag for a name with one scale tag, and raises ValueError for an unsupported key, for a repeated key and for a non-numeric value.", "quantifier": "every name", "why_tests_cant": "regular-expression scan over every string", "anchors": ["spine_json_lib/utils.py:get_tags_from_name", "spine_json_lib/utils.py:cast_element"]}
{"id": "C33", "title": "Custom scale is the product of the tags up the bone chain", "statement": "get_slot_custom_scale terminates exactly when climbing the bone chain of the slot reaches the bone named root, leaves the skeleton, or meets a name with a malformed scale tag; in the first case it returns the product of the slot's scale tag and the scale tags of the bones below root, otherwise it raises.", "quantifier": "every skeleton (including cyclic parent links) and every slot", "why_tests_cant": "termination for every parent structure", "anchors": ["spine_json_lib/data/spine_anim_data.py:SpineAnimationData.get_bone_custom_scale_recursive", "spine_json_lib/data/spine_anim_data.py:SpineAnimationData.get_slot_custom_scale"]}
{"id": "C34", "title": "erase_animations removes exactly the named animations", "statement": "After erase_animations(names) returns, the document's animations are the previous ones whose name is not in names, in the same order.", "quantifier": "every editor state and every list of names", "why_tests_cant": "all states and lists", "anchors": ["spine_json_lib/spine_animation_editor.py:SpineAnimationEditor.erase_animations", "spine_json_lib/spine_animation_editor.py:SpineAnimationEditor._erase_raw_animations_data"]}
{"id": "C35", "title": "Strict mode rejects unknown animations without changing anything", "statement": "With strict_mode=True erase_animations raises ValueError if some name is not an animation, and the editor is then unchanged; with strict_mode=False unknown names are ignored.", "quantifier": "every editor state and every list of names, duplicates included", "why_tests_cant": "state after an exception is never tested", "anchors": ["spine_json_lib/spine_animation_editor.py:SpineAnimationEditor._erase_raw_animations_data"]}
{"id": "C36", "title": "Safe mode only touches animations", "statement": "erase_animations with is_safe_mode=True leaves bones, slots, skins, iks, constraints, events, the remaining animations and images_references unchanged.", "quantifier": "every editor state and every list of names", "why_tests_cant": "all states", "anchors": ["spine_json_lib/spine_animation_editor.py:SpineAnimationEditor.erase_animations"]}
{"id": "C37", "title": "Cleaning never removes or reorders bones and iks", "statement": "After clean_animation returns, the serialised bones and iks are those the editor was last built from: none is removed, added, reordered or altered.", "quantifier": "every reachable editor state", "why_tests_cant": "all states", "anchors": ["spine_json_lib/spine_animation_editor.py:SpineAnimationEditor.clean_animation"]}
{"id": "C38", "title": "Cleaning keeps the surviving slots in order and unaltered", "statement": "After clean_animation returns, the slots are the previous slots minus the removed ones, in the same order and with unchanged attributes.", "quantifier": "every reachable editor state", "why_tests_cant": "all states", "anchors": ["spine_json_lib/spine_animation_editor.py:SpineAnimationEditor.clean_animation"]}
{"id": "C39", "title": "Cleaning removes exactly the invisible and the empty slots", "statement": "clean_animation removes a slot if and only if it is shown in no animation, or no attachment that survives the cleaning is attached to it in any skin; the returned list contains exactly the removed slots.", "quantifier": "every reachable editor state", "why_tests_cant": "visibility is a fold over all animations", "anchors": ["spine_json_lib/data/spine_anim_data.py:SpineAnimationData.get_unused_slots_and_attachments", "spine_json_lib/spine_animation_editor.py:SpineAnimationEditor.clean_animation"]}
{"id": "C40", "title": "Cleaning never removes an attachment that is shown", "statement": "An attachment name that some animation shows on a slot visible in it, or that is the setup attachment of a slot visible in some animation, is not removed from any surviving slot of any skin.", "quantifier": "every reachable editor state", "why_tests_cant": "all states", "anchors": ["spine_json_lib/data/spine_anim_data.py:SpineAnimationData.get_visible_slots_and_attachments", "spine_json_lib/data/spine_anim_data.py:SpineAnimationData.get_unused_slots_and_attachments"]}
{"id": "C41", "title": "Meshes of visible slots are kept", "statement": "clean_animation never removes a mesh attachment from a slot that is shown in some animation.", "quantifier": "every reachable editor state", "why_tests_cant": "attachment ids are shared between slots", "anchors": ["spine_json_lib/data/spine_anim_data.py:SpineAnimationData.get_unused_slots_and_attachments"]}
{"id": "C42", "title": "Cleaning leaves no reference to a removed slot", "statement": "After clean_animation returns, no skin, no animation slot timeline, no deform timeline and no drawOrder offset refers to a removed slot.", "quantifier": "every reachable editor state", "why_tests_cant": "references live in five places of arbitrary documents", "anchors": ["spine_json_lib/spine_animation_editor.py:SpineAnimationEditor.remove_slots", "spine_json_lib/spine_animation_editor.py:SpineAnimationEditor._clean_slots_in_animations", "spine_json_lib/data/data_types/animation.py:Animation.remove_deforms_using_slots"]}
{"id": "C43", "title": "Cleaning leaves no reference to a removed attachment", "statement": "After clean_animation returns, no skin, no slot setup pose, no deform timeline of an existing skin and no attachment keyframe refers to a removed attachment.", "quantifier": "every reachable editor state", "why_tests_cant": "references live in four places of arbitrary documents", "anchors": ["spine_json_lib/spine_animation_editor.py:SpineAnimationEditor.remove_attachments", "spine_json_lib/spine_animation_editor.py:SpineAnimationEditor._clean_attachments_in_slots"]}
{"id": "C44", "title": "Removing slots preserves the draw order of the others", "statement": "For every drawOrder keyframe, applying the rewritten offsets to the surviving slots yields the original drawing sequence of that keyframe with the removed slots left out.", "quantifier": "every slot list, every valid keyframe and every set of removed slots", "why_tests_cant": "permutations of arbitrary size", "anchors": ["spine_json_lib/data/data_types/draworder.py:DrawOrderTimeline.remove_offsets_with_ids", "spine_json_lib/data/data_types/draworder.py:DrawOrderTimeline._adjust_draw_oder_offset_with_erased_slots"]}
{"id": "C45", "title": "Rewritten drawOrder offsets are valid", "statement": "After removing slots every rewritten offset refers to a surviving slot, is non-zero, and moves it to an index inside the new slot list, no two to the same index (so Spine does not raise ArrayIndexOutOfBounds).", "quantifier": "every slot list, every valid keyframe and every set of removed slots", "why_tests_cant": "index arithmetic over arbitrary lists", "anchors": ["spine_json_lib/data/data_types/draworder.py:DrawOrderTimeline.remove_offsets_with_ids"]}
{"id": "C46", "title": "The draw-order interpretation is the Spine one", "statement": "_reorder_slots_with_offset places every slot with an offset at its index plus offset and keeps all other slots in setup order in the remaining places.", "quantifier": "every slot list and every set of distinct in-range target indices", "why_tests_cant": "sorted insertion into a shrinking list", "anchors": ["spine_json_lib/data/data_types/draworder.py:DrawOrderTimeline._reorder_slots_with_offset"]}
{"id": "C47", "title": "images_references covers every image in use", "statement": "After loading and after any history of erase_skins, erase_animations, clean_animation and scale_animation calls, every image used by a non-path attachment of a remaining skin is a key of images_references.", "quantifier": "every document and every operation history", "why_tests_cant": "histories, including failed calls", "anchors": ["spine_json_lib/spine_animation_editor.py:SpineAnimationEditor._clean_images_references", "spine_json_lib/spine_animation_editor.py:SpineAnimationEditor.get_images_references"]}
{"id": "C48", "title": "images_references lists no unused image", "statement": "After loading, and after erase_skins / erase_animations, images_references contains only images used by a non-path attachment of a remaining skin.", "quantifier": "every document and every operation history", "why_tests_cant": "histories", "anchors": ["spine_json_lib/spine_animation_editor.py:SpineAnimationEditor._clean_images_references"]}
{"id": "C49", "title": "erase_skins removes exactly the named skins", "statement": "A successful erase_skins(names) removes every skin with one of these names, keeps the others in order, and drops the deform timelines of the removed skins from every animation; at the first name that is not (or no longer) the name of a skin it raises SpineJsonEditorError.", "quantifier": "every editor state and every list of names", "why_tests_cant": "all states", "anchors": ["spine_json_lib/data/spine_anim_data.py:SpineAnimationData.remove_skin", "spine_json_lib/spine_animation_editor.py:SpineAnimationEditor.erase_skins"]}
{"id": "C50", "title": "Linked meshes survive the removal of their parent skin", "statement": "After erase_skins, no linked mesh of a remaining skin refers to a removed skin: it was replaced by a copy of its parent mesh that keeps the linked mesh's own name, path, width and height.", "quantifier": "every editor state", "why_tests_cant": "links between arbitrary skins", "anchors": ["spine_json_lib/data/spine_anim_data.py:SpineAnimationData.remove_skin"]}
{"id": "C51", "title": "erase_skins reports only images that are no longer used", "statement": "No image in the list returned by erase_skins is used by any attachment of a remaining skin.", "quantifier": "every editor state and list of names", "why_tests_cant": "all states", "anchors": ["spine_json_lib/spine_animation_editor.py:SpineAnimationEditor.erase_skins"]}
{"id": "C52", "title": "scale_animation scales the root and the non-inheriting bones exactly once", "statement": "scale_animation(sx,sy) multiplies scaleX/scaleY of the root bone and of every bone with transform noScale, noScaleOrReflection or onlyTranslation by sx/sy exactly once and changes nothing else.", "quantifier": "every editor state and every pair of factors", "why_tests_cant": "all skeletons", "anchors": ["spine_json_lib/spine_animation_editor.py:SpineAnimationEditor.scale_animation", "spine_json_lib/data/data_types/bone.py:Bone.scale"]}
{"id": "C53", "title": "Scaling survives later edits", "statement": "After scale_animation, later erase_animations / erase_skins calls keep the scaled bones.", "quantifier": "every operation history", "why_tests_cant": "histories", "anchors": ["spine_json_lib/spine_animation_editor.py:SpineAnimationEditor.clean_animation", "spine_json_lib/spine_animation_editor.py:SpineAnimationEditor.scale_animation"]}
{"id": "C54", "title": "Cleaning twice is the same as cleaning once", "statement": "A second clean_animation right after a successful one changes nothing.", "quantifier": "every reachable editor state", "why_tests_cant": "all states", "anchors": ["spine_json_lib/spine_animation_editor.py:SpineAnimationEditor.clean_animation"]}
{"id": "C55", "title": "clean_animation fails only on documented causes", "statement": "On a reachable editor clean_animation never fails because of a missing graph node; it raises only when an animation refers to an unknown slot, a slot colour is not hexadecimal, a drawOrder offset names an unknown slot, or an animation without slot timelines meets a skeleton without default-visible slots.", "quantifier": "every reachable editor state", "why_tests_cant": "all histories", "anchors": ["spine_json_lib/spine_animation_editor.py:SpineAnimationEditor.clean_animation", "spine_json_lib/spine_graph_container.py:SpineGraphContainer.remove_attachments"]}
{"id": "C56", "title": "Image references carry the right path and scale", "statement": "After loading, every entry of images_references maps the image to the images folder joined with the image path, and carries the product scale of a slot that uses it exactly when this scale differs from 1.", "quantifier": "every document", "why_tests_cant": "all documents", "anchors": ["spine_json_lib/spine_animation_editor.py:SpineAnimationEditor.get_images_references"]}
{"id": "C57", "title": "Alpha-zero slots are recognised from the colour", "statement": "A slot counts as transparent exactly when its colour is a hexadecimal number whose last two digits are zero; a non-hexadecimal colour raises ValueError.", "quantifier": "every colour string", "why_tests_cant": "all strings", "anchors": ["spine_json_lib/data/spine_anim_data.py:SpineAnimationData.get_slots_with_alpha_zero"]}
{"id": "C58", "title": "Output files can be written to any path", "statement": "to_json(path) and save_images_json(path) create the missing parent directory and write the file for every path whose parent can be created, including bare file names.", "quantifier": "every path", "why_tests_cant": "all paths", "anchors": ["spine_json_lib/spine_animation_editor.py:SpineAnimationEditor.to_json", "spine_json_lib/spine_animation_editor.py:SpineAnimationEditor.save_images_json"]}
{"id": "C59", "title": "erase_skins fails only for unknown or repeated names and for missing meshes", "statement": "On an editor obtained from a loaded document by any calls, erase_skins(names, safe=True) succeeds for one name exactly when there is a skin of that name and it has, under the same slot and key, an attachment for every linked mesh of another skin that names it; it raises the library's error for an unknown name and KeyError for a missing mesh. Several names are erased one after the other; without linked meshes the call succeeds exactly when all names exist and none is repeated. Without safe mode the call does what it does in safe mode followed by clean_animation.", "quantifier": "every document, every history of calls, every list of names", "why_tests_cant": "all documents, histories and lists of names", "anchors": ["spine_json_lib/spine_animation_editor.py:SpineAnimationEditor.erase_skins", "spine_json_lib/data/spine_anim_data.py:SpineAnimationData.remove_skin"]}
{"id": "C60", "title": "erase_skins reports exactly the images that are no longer used", "statement": "An image is among the images reported by erase_skins exactly when an attachment of a removed skin uses it and no attachment of a remaining skin does.", "quantifier": "every document, every history of calls, every list of names, every image", "why_tests_cant": "all documents, histories and images", "anchors": ["spine_json_lib/spine_animation_editor.py:SpineAnimationEditor.erase_skins", "spine_json_lib/data/spine_anim_data.py:SpineAnimationData.remove_skin"]}
{"id": "C61", "title": "Dropped attributes are the ones a reader assumes", "statement": "For every object of a Spine 3.8 document, and every attribute for which the Spine format fixes the value assumed when it is absent, a reader takes from the written object the same value as from the object that was loaded. Conversely no attribute that has a default in the library is written with the value a reader assumes for it.", "quantifier": "every kind of object, every attribute, every value", "why_tests_cant": "all objects and values", "anchors": ["spine_json_lib/data/data_types/base_type.py:SpineData.to_spine_data_ignoring_default_values", "spine_json_lib/data/data_types/base_type.py:SpineData.set_default_values_from_version"]}
{"id": "C62", "title": "Cleaning does not change what is drawn", "statement": "After clean_animation has succeeded, at every moment of every animation and with every skin active, a player draws the same attachments on the same slots, from the same skins, with the same colours and deform timelines, and in the same order as before the call. erase_animations and erase_skins likewise leave what is drawn by the animations and skins that remain.", "quantifier": "every document that loads, every history of calls, every animation, moment and active skin", "why_tests_cant": "the moments of an animation, the skins and the drawOrder keyframes combine without bound", "anchors": ["spine_json_lib/spine_animation_editor.py:SpineAnimationEditor.clean_animation", "spine_json_lib/spine_animation_editor.py:SpineAnimationEditor.erase_animations", "spine_json_lib/spine_animation_editor.py:SpineAnimationEditor.erase_skins", "spine_json_lib/data/spine_anim_data.py:SpineAnimationData.get_unused_slots_and_attachments"]}
{"id": "C63", "title": "Editing calls change nothing else", "statement": "Whatever editing calls are made, and whether they return or raise, the document written afterwards has the skeleton, events, transform constraints and path constraints of the one written before. Its skins and animations are some of those before, in the same order. Each animation keeps its bone, constraint and event timelines and the times of its drawOrder keyframes, and every slot and deform timeline that is left is unchanged.", "quantifier": "every document that loads, every list of calls with any arguments, every outcome", "why_tests_cant": "all documents, histories and failures halfway", "anchors": ["spine_json_lib/spine_animation_editor.py:SpineAnimationEditor.clean_animation", "spine_json_lib/spine_animation_editor.py:SpineAnimationEditor.erase_animations", "spine_json_lib/spine_animation_editor.py:SpineAnimationEditor.erase_skins", "spine_json_lib/spine_animation_editor.py:SpineAnimationEditor.scale_animation", "spine_json_lib/data/spine_anim_data.py:SpineAnimationData.remove_skin"]}
{"id": "C64", "title": "Links lead to the nodes of the graph", "statement": "After any sequence of graph calls, including failed ones and nodes removed and added again under the same id: get_node(k) has id k; for every entry (c, n) of its children, n is the very object get_node(c) returns, it is not the node itself, and n.parents[k] is the node; the same with children and parents exchanged. So every object reached from a node of the graph by following links is a node of the graph. A call other than the removal of k leaves the object under k; add_node returns an object that did not exist before and has no links; an object returned by remove_node_by_id is not changed by any later call and never becomes a node again. Hence every call and query can be computed from ids alone.", "quantifier": "all factories, all sequences of graph calls of any length with any arguments, all nodes, links and chains of links", "why_tests_cant": "Stale references appear only after particular interleavings of removals and additions under equal ids; tests compare ids, and __eq__ of nodes compares ids too, so a stale object goes unnoticed.", "anchors": ["spine_json_lib/graph/dagraph.py: DAGraph.add_node, add_edge, remove_edge, remove_node_by_id, get_node", "spine_json_lib/graph/spamnode.py: SpamNode._add_parent, SpamNode._add_child, SpamNode.__eq__"]}
{"id": "C65", "title": "The editing calls leave no dangling references", "statement": "If every reference of the document written by to_json leads to something (parents of bones, bones of slots and constraints, targets of ik and transform constraints, and the bones, slots, skins, attachments, constraints and events that animations and skins name), then so does every reference of the document written after any editing calls. Bones, constraints and events stay; no call introduces a reference to a bone, constraint or event that was not referred to before.", "quantifier": "all documents that load (for slots and deformed attachments: without duplicate keys and with no slot name containing \"_SLOT\"), all sequences of editing calls of any length with any arguments and any outcomes", "why_tests_cant": "A dangling reference needs a call that removes something and an element of another kind, anywhere in the document, that names it; the combinations of kinds, documents and call histories are unbounded, and the loader does not report dangling references.", "anchors": ["spine_json_lib/spine_animation_editor.py: clean_animation, erase_skins, erase_animations, scale_animation, to_json", "spine_json_lib/data/spine_anim_data.py: SpineAnimationData"]}
{"id": "C66", "title": "Operations on a document treat every object inside it like the object alone", "statement": "to_json, set_default_values and clean_unsupported_attributes of a document never raise and reach every object below it, through lists, dictionaries and attributes, at any depth. At every place reached through written attributes the JSON holds what to_json gives for the value there, and the JSON has no other places; every object keeps its attributes and only null ones take the defaults of their class and version; listed attributes are cleared exactly when every component of the version is below that of 3.8.0. A value of another Python type (a tuple, a set) raises TypeError exactly when it sits at a place that would be written.", "quantifier": "all documents in any state and, for the traversal itself, all finite trees of JSON values and objects of any classes with any defaults; all versions; all places", "why_tests_cant": "Documents nest objects to six levels in thirty classes with different defaults; a traversal that misses one kind of container loses data only in documents that use that combination.", "anchors": ["spine_json_lib/data/data_types/base_type.py: SpineData.traverse_spine_data, set_default_values_from_version, to_spine_data_ignoring_default_values, remove_unsupported_attributes"]}
{"id": "C67", "title": "The recursion limit does not decide whether an editing call succeeds", "statement": "clean_animation, erase_animations, erase_skins and the queries on graphs (heads, tails, validation, order of execution) give the same result and the same effects under every recursion limit of the interpreter; in particular a document that loads and could be cleaned with enough stack is cleaned.", "quantifier": "all recursion limits, all graphs built by API calls, all documents that load and all histories of editing calls", "why_tests_cant": "Test documents have a few dozen bones; the default limit of 1000 nested calls is only reached by skeletons with long chains (ropes, tails), and which search recurses deepest depends on the order in which parents and children are listed.", "anchors": ["spine_json_lib/graph/dagraph.py: DAGraph.get_heads_id, get_tails_id, validate, sequential_order_of_execution", "spine_json_lib/graph/graph_validator.py: GraphValidator.get_circular_dependencies", "spine_json_lib/spine_graph_container.py: remove_heads_of_type, remove_leafs_of_type", "spine_json_lib/spine_animation_editor.py: SpineAnimationEditor.clean_animation"]}
{"id": "C68", "title": "A node that add_node accepts is a node of the graph", "statement": "add_node with an unused string id, or without id, returns a node with the given data and no links; get_node finds it, remove_node_by_id removes it, and the queries (heads, tails, validation, paths, order of execution) work before and after, for every node type of the graph's node factory.", "quantifier": "all node factories (including the one of the skeleton graph), all node types, all histories of graph calls before and after", "why_tests_cant": "The tests add nodes of the types the library itself uses; a type without a node breaks nothing until some later query meets the stored entry, and that the graph cannot be repaired is a claim about all later histories.", "anchors": ["spine_json_lib/graph/dagraph.py: DAGraph.add_node, get_node, remove_node_by_id, get_heads_id, get_tails_id, validate, get_all_paths, sequential_order_of_execution", "spine_json_lib/deserializer/spine_nodes.py: SpineNodeFactory.create_node"]}
{"id": "C69", "title": "Removing slots or attachments by name removes exactly those nodes", "statement": "remove_slots and remove_attachments on the graph container remove the nodes of the given names with their edges, in order, return the removed nodes, and leave every other node and edge as it is. A name that is unknown or occurs twice raises ValueError, and then exactly the names before it are removed. An empty list changes nothing.", "quantifier": "all graphs built by API calls, all lists of names (empty, repeated, unknown, mixed)", "why_tests_cant": "The result of a repeated or unknown name in the middle of a list depends on its position and on the edges between the nodes removed before it; tests use one or two names.", "anchors": ["spine_json_lib/spine_graph_container.py: SpineGraphContainer.remove_slots, remove_attachments, remove_attachment", "spine_json_lib/graph/dagraph.py: DAGraph.remove_node_by_id"]}
{"id": "C70", "title": "The numbers of parents and children count the edges", "statement": "num_parents and num_children of a node are the numbers of its edges from and to other nodes, each counted once; over the whole graph the two sums are equal, after any sequence of graph calls.", "quantifier": "all histories of graph calls, all nodes", "why_tests_cant": "The two numbers are kept on both ends of every edge; an operation that updates one end only is visible only in the sums over graphs with shared children.", "anchors": ["spine_json_lib/graph/spamnode.py: SpamNode.num_parents, num_children"]}
{"id": "C71", "title": "The record of erased nodes is exact", "statement": "AnimationEraserResult lists under each type exactly the ids saved for it, each once; attachments_erased lists exactly the saved attachments; saving under one type does not change another, and the order of the calls does not matter.", "quantifier": "all sequences of save calls, all types and ids", "why_tests_cant": "Order independence and absence of interference are claims about all sequences of calls.", "anchors": ["spine_json_lib/spine_animation_editor.py: AnimationEraserResult"]}
{"id": "C72", "title": "The graph parser reads what it wrote", "statement": "create_from_json_data of what to_json_data gives for the graph of a document builds the same graph, in memory and through a file.", "quantifier": "all documents with lists of bones, slots and iks from which a graph can be built", "why_tests_cant": "The tests build graphs from complete documents only; whether the written form can be read depends on keys the writer never writes.", "anchors": ["spine_json_lib/deserializer/spine_nodes.py: SpineGraphParser.create_from_json_file, create_from_json_data, to_json, to_json_data"]}
{"id": "C73", "title": "Parser classes, node factories and error types are checked", "statement": "to_json, to_json_data, create_from_json_file and create_from_json_data of a graph raise TypeError for every argument that is not a class derived from IGraphParser, and otherwise do what the method of the class does (NotImplementedError if it has none). DAGraph raises TypeError for every factory that does not derive from INodeFactory. Validation errors are collected with known types only and never raise for their type.", "quantifier": "all arguments (objects that are no classes, unrelated classes, the interfaces themselves, derived classes with any methods), all graphs", "why_tests_cant": "Four calls times four kinds of arguments times missing methods; the checks are written separately in each call and differ.", "anchors": ["spine_json_lib/graph/dagraph.py: DAGraph.__init__, to_json, to_json_data, create_from_json_file, create_from_json_data", "spine_json_lib/graph/factories.py: IGraphParser, INodeFactory", "spine_json_lib/graph/graph_validator.py: GraphValidationErrors.add_error"]}
{"id": "C74", "title": "Nodes and versions compare with everything and can be hashed", "statement": "Two nodes of a graph are equal exactly when they are the same node, two versions exactly when their numbers are the same; comparing either with any other object gives False, and both can be put in sets and used as keys.", "quantifier": "all histories of graph calls and pairs of nodes, all versions, all objects on the other side", "why_tests_cant": "The other side of a comparison can be any object, and hashing is only exercised when somebody builds a set of nodes.", "anchors": ["spine_json_lib/graph/spamnode.py: SpamNode.__eq__, __hash__", "spine_json_lib/data/spine_version_type.py: SpineVersion.__eq__"]}
{"id": "C75", "title": "get gives the attribute or the default", "statement": "get(name, default) on an object loaded from a document gives the value the document has for the name, and the default if it has none or null, for every name. An object can be made exactly if its class defines both dictionaries of defaults.", "quantifier": "all classes, all documents of the class, all names and defaults", "why_tests_cant": "Names are arbitrary strings, including those of methods and constants of the class; tests ask for attributes only.", "anchors": ["spine_json_lib/data/data_types/base_type.py: SpineData.get, SpineData.__new__, SpineData.__init__"]}
{"id": "C76", "title": "Casting gives the requested type or raises", "statement": "cast_element gives a float for number, an int for integer, a string for string and a bool for boolean, or raises ValueError, TypeError or OverflowError; casting again changes nothing; booleans are recognised in letters of any case. The names in graph ids are formatted in the same way.", "quantifier": "all JSON values and type names, all implementations of floats and Unicode tables that satisfy the stated laws", "why_tests_cant": "Every value type times every requested type, with strings of any spelling and numbers of any size.", "anchors": ["spine_json_lib/utils.py: cast_element"]}
{"id": "C77", "title": "What is written as JSON text is read back", "statement": "Writing a value as JSON text, indented or not, and reading the text gives the value back; different values have different texts. Reading accepts exactly the texts of the JSON grammar (with NaN, Infinity and -Infinity added), gives what the grammar says they mean, and ends on every text. Written text is printable ASCII, on one line or indented by four blanks for every open bracket. A file is opened exactly if its text means a document that can be loaded, and rejected if it means nothing. The output file of an editor, after any calls, is read back as its document.", "quantifier": "all values without repeated keys, all texts, all editors after any history of calls with any outcomes, all implementations of floats whose repr is a decimal that is read back", "why_tests_cant": "Strings contain any characters, including quotes, controls and characters outside the basic plane; nesting is unbounded; the set of accepted texts is infinite.", "anchors": ["spine_json_lib/spine_animation_editor.py: SpineAnimationEditor.from_json_file, to_json, save_images_json", "spine_json_lib/deserializer/spine_nodes.py: SpineGraphParser.create_from_json_file, to_json"]}
{"id": "C78", "title": "Output files are JSON", "statement": "What to_json and save_images_json write is JSON after RFC 8259, so that any reader of the format accepts it.", "quantifier": "all documents that are JSON, all histories of calls with finite factors", "why_tests_cant": "The writer emits constants that are not JSON for numbers that are not finite; these come from literals out of range, from tags in names and from products, which tests do not combine.", "anchors": ["spine_json_lib/spine_animation_editor.py: SpineAnimationEditor.to_json, save_images_json, scale_animation"]}
{"id": "C79", "title": "Editors, documents and class constants share nothing", "statement": "An editor shares no object with the document it was opened for, with the documents it returned, with other editors or with the class constants. So whatever a program does with its own documents, with returned ones or with other editors leaves an editor as it is, and opening an editor or calling its methods, successfully or not, leaves every document of the program and the class constants as they are.", "quantifier": "all programs of any length that open editors for any values they hold, call any methods with any arguments and outcomes, and build, change and forget objects of their own in any way; documents may contain shared and cyclic objects", "why_tests_cant": "A missing copy shows only when two holders change the same object in a particular order; there are infinitely many programs, and sharing is invisible in the values compared by tests.", "anchors": ["spine_json_lib/data/spine_anim_data.py: SpineAnimationData.__init__, to_json_data", "spine_json_lib/spine_animation_editor.py: SpineAnimationEditor", "spine_json_lib/data/data_types/base_type.py: SpineData", "spine_json_lib/deserializer/spine_nodes.py: SpineNodeData"]}
{"id": "C80", "title": "Editing depends only on the JSON values of the documents", "statement": "What an editor does, returns and raises depends only on the JSON value of the document it was opened for and on the calls made before. Objects shared inside a document, shared between documents or changed by the program afterwards make no difference; two documents that print the same are edited the same.", "quantifier": "all programs of any length that open editors for documents they hold, including documents returned by editors, call any methods with any arguments and outcomes and change their own objects in any way in between; all heaps, so all ways in which documents can share objects", "why_tests_cant": "The same value has unboundedly many representations as objects, and tests read their documents from JSON text, where nothing is shared.", "anchors": ["spine_json_lib/data/spine_anim_data.py: SpineAnimationData.__init__, to_json_data", "spine_json_lib/spine_animation_editor.py: SpineAnimationEditor", "spine_json_lib/data/data_types/base_type.py: SpineData", "spine_json_lib/data/data_types/skin.py: Skin", "spine_json_lib/deserializer/spine_nodes.py: SpineNodeData"]}
{"id": "C81", "title": "The order in which sets are iterated does not matter", "statement": "Python iterates over a set of names in an order that differs between processes. Two processes that make the same calls on the same document get the same exception or the same result at every call, up to the order of the removed names, and end with the same document, images and graph.", "quantifier": "all documents without duplicate keys, all call sequences of any length with any arguments, all outcomes, and all ways of ordering the sets, chosen anew at each of the three places and at every call", "why_tests_cant": "One test run sees one hash seed. The number of orders is factorial in the number of unused names, and failures appear only for some of them.", "anchors": ["spine_json_lib/spine_animation_editor.py: SpineAnimationEditor.clean_animation, erase_skins, erase_animations", "spine_json_lib/deserializer/spine_nodes.py: SpineNodes", "spine_json_lib/data/data_types/animation.py: Animation.remove_draw_order_with_ids"]}
{"id": "C82", "title": "Erasing more animations never keeps more", "statement": "If erase_animations succeeds for a list of names and for a longer list on the same editor, every slot that is left after the longer list is left after the shorter one, in the same order, and every skin's attachments that are left after the longer list are left after the shorter one. Erasing the longer list leniently succeeds whenever erasing the shorter one does.", "quantifier": "all documents, all editors reached by successful calls, all pairs of name lists one of which contains the other, strict or lenient", "why_tests_cant": "Monotonicity relates two runs on the same editor; the pairs of subsets of animations grow exponentially and a test compares a run with an expected value, not two runs.", "anchors": ["spine_json_lib/spine_animation_editor.py: SpineAnimationEditor.erase_animations, clean_animation", "spine_json_lib/data/data_types/animation.py: Animation"]}
{"id": "C83", "title": "Erasing in several calls is erasing in one", "statement": "Erasing some names in safe mode and then the rest has the outcome and leaves the editor of one call with all names; in strict mode the one call raises ValueError exactly if one of the two does. Without safe mode erase_animations is the safe call followed by clean_animation. In lenient mode order and repetition of the names do not matter. For erase_skins the second call raises, removes and leaves in the document what the one call does. The images it reports are those the two calls report together.", "quantifier": "all editors, all splits of all name lists, strict and lenient, second call safe or not", "why_tests_cant": "Sequences of calls are tested one scenario at a time; equality of all splits of all lists, including which exception is raised, is not enumerable.", "anchors": ["spine_json_lib/spine_animation_editor.py: SpineAnimationEditor.erase_animations, erase_skins, clean_animation, _erase_raw_animations_data"]}
{"id": "C84", "title": "Calls that concern different parts commute", "statement": "In safe mode erase_animations and erase_skins can be exchanged, and so can scale_animation with either: each call raises or returns the same removed names in both orders, and the editor ends with the same document and images (for erase_animations also the same graph).", "quantifier": "all editors (for scale_animation with erase_skins: all editors reached from any document by any calls), all arguments, including calls that raise", "why_tests_cant": "The orders agree only if no call reads what another writes; a test with two orders on one document says nothing about other documents and failing calls.", "anchors": ["spine_json_lib/spine_animation_editor.py: SpineAnimationEditor.erase_animations, erase_skins, scale_animation", "spine_json_lib/deserializer/spine_nodes.py: SpineNodes"]}
{"id": "C85", "title": "Loading and saving without an edit", "statement": "to_json_data of an editor that has just loaded a document is a fixed function of the document, given by one table of attributes per kind of object: every object of the document is found at the same place of the output; each attribute the library knows is written with its value, unless the value is missing, null or equal to the default the library has for it; there are no other attributes, none of the given attributes is unknown, and no objects are added.", "quantifier": "all JSON documents that load, all 26 kinds of objects, all places of each kind, all attributes", "why_tests_cant": "The output depends on every attribute of every object at every place; a round trip of sample files checks the attributes that occur in the samples with the values they have there.", "anchors": ["spine_json_lib/spine_animation_editor.py: SpineAnimationEditor.create_from_json_data, to_json_data", "spine_json_lib/data/spine_anim_data.py: SpineAnimationData", "spine_json_lib/data/data_types/"]}
{"id": "C86", "title": "What a reader of the saved file sees", "statement": "A reader that takes its own default for an attribute that is missing sees in the saved file of an unedited document the same value of every attribute of every object as in the document. This holds for readers with the defaults of the library; the defaults of the Spine runtimes are those of the library except for the listed attributes.", "quantifier": "all JSON documents that load, all objects and attributes, all readers (functions from attributes to defaults)", "why_tests_cant": "A round trip compares files loaded by the same library, whose defaults cancel out; whether another reader sees the same values is a statement about all readers and all values that equal a default.", "anchors": ["spine_json_lib/spine_animation_editor.py: SpineAnimationEditor.create_from_json_data, to_json_data", "spine_json_lib/data/data_types/transform.py", "spine_json_lib/data/data_types/path.py", "spine_json_lib/data/data_types/bone.py", "spine_json_lib/data/data_types/animation.py"]}
{"id": "C87", "title": "The order of the keys of the document", "statement": "Two documents that differ only in the order of the keys of their objects are treated alike: both load or neither; in any sequence of erase_skins, erase_animations, clean_animation and scale_animation the same calls succeed on both, also after calls that raised an exception; after the same calls the documents they save differ only in the order of keys; the calls report the same removed slots, attachments and images; images_references lists the same images with the same files, and with the same scales when the slots that show an image have the same scale.", "quantifier": "all pairs of JSON documents equal up to the order of keys at every depth, all sequences of successful calls with all arguments", "why_tests_cant": "The library iterates over dictionaries, builds sets and lists from them and keeps the last of several entries. Tests use one order of keys, the one of the sample files.", "anchors": ["spine_json_lib/spine_animation_editor.py: SpineAnimationEditor.create_from_json_data, erase_skins, erase_animations, clean_animation, scale_animation, to_json_data, images_references", "spine_json_lib/data/spine_anim_data.py: SpineAnimationData", "spine_json_lib/deserializer/spine_nodes.py: SpineNodes"]}
{"id": "C88", "title": "The saved document is the state of the editor", "statement": "Two editors that save the same document answer every sequence of erase_skins, erase_animations and clean_animation alike, whatever calls led to them: the same exception, or the same documents, the same removed slots, attachments and images, and in the end the same saved document. In particular saving and opening the document again between calls makes no difference: a sequence of calls cut into sessions, each on the document that the one before saved, ends with the same document.", "quantifier": "all pairs of editors reached by sequences of calls from loaded documents that save the same document, all sequences of calls with all arguments, all ways of cutting them into sessions", "why_tests_cant": "The editor holds the data, a graph, the image references and attributes that are filled with default values and omitted again when saving; any of them could make a reopened editor behave differently. Tests make one call on a freshly loaded file.", "anchors": ["spine_json_lib/spine_animation_editor.py: SpineAnimationEditor.create_from_json_data, erase_skins, erase_animations, clean_animation, to_json_data", "spine_json_lib/data/spine_anim_data.py: SpineAnimationData", "spine_json_lib/deserializer/spine_nodes.py: SpineNodes", "spine_json_lib/data/data_types/base_type.py: JsonSerializableObject"]}
{"id": "C89", "title": "Editing a file in several sessions", "statement": "Opening a file, making some calls of erase_skins, erase_animations and clean_animation, saving to the same file and opening it again for the next calls is the same as making all calls in one session and saving once: the same results of the calls, the same bytes in the file, and nothing else on the disk changes. Saving without calls any number of times leaves the bytes of the first time. A session in which the library raises an exception changes nothing on the disk.", "quantifier": "all disks, all file names with a directory part, all texts of the file, all sequences of calls with all arguments, all ways of cutting them into sessions", "why_tests_cant": "Reader and writer, the path handling and the editor have to agree for every document and every sequence of calls; a test opens one file once.", "anchors": ["spine_json_lib/spine_animation_editor.py: SpineAnimationEditor.from_json_file, to_json, erase_skins, erase_animations, clean_animation"]}
{"id": "C90", "title": "Programs that work with files do not notice sharing", "statement": "A program that opens editors for files, calls them and saves them to files observes the same answers and leaves the same files as if every document were a value and every call a function on values, although the library works on mutable objects that it copies partly deeply, partly by reference and partly not at all. This holds for any number of editors open at the same time, also for the same file, in any order of steps, whether or not single steps fail. The image references of any editor can be saved after such a program with the same result.", "quantifier": "all disks with files of any content, all programs of openings, calls with all arguments and savings under any names", "why_tests_cant": "Sharing shows only in particular sequences of calls on several editors; a test makes one call on one editor and compares one result.", "anchors": ["spine_json_lib/spine_animation_editor.py: SpineAnimationEditor.from_json_file, to_json, save_images_json, erase_skins, erase_animations, clean_animation, scale_animation, to_json_data", "spine_json_lib/data/spine_anim_data.py: SpineAnimationData", "spine_json_lib/data/data_types/base_type.py: JsonSerializableObject"]}
{"id": "C91", "title": "A document saved after editing draws what it drew before", "statement": "When a file is opened, edited by any calls of clean_animation, erase_animations and erase_skins, and saved, in one or more sessions, then every animation that was not erased draws, with every skin that was not erased, at every moment what it drew before: the same attachments on the same slots, with the attributes, colour keyframes and deform keyframes that are saved for them. Two editors that save the same document draw the same, in the same order.", "quantifier": "all documents and files, all sequences of calls and all ways to cut them into sessions, all animations and skins that the calls spare, all moments", "why_tests_cant": "What is drawn is not something the library computes; a test can compare saved documents with expected ones but not what a player makes of them, and for a few documents only.", "anchors": ["spine_json_lib/spine_animation_editor.py: SpineAnimationEditor.from_json_file, to_json, clean_animation, erase_animations, erase_skins, to_json_data", "spine_json_lib/data/spine_anim_data.py: SpineAnimationData"]}
{"id": "C92", "title": "What is printed is what happened", "statement": "clean_animation, and erase_animations and erase_skins outside safe mode, print the slots that are gone, the attachments that are gone, each once, and the images that are gone from images_references, if there are any; a call that fails prints nothing. Over any calls every image reference is still there or was named exactly once. The names can be read off the text. The ValueError of erase_animations in strict mode names exactly the unknown and the repeated names, in order.", "quantifier": "all editors reached by calls from a document, all calls and their arguments, failing or not; images and messages for all editors", "why_tests_cant": "The output is a report on a whole state change; a test compares it for a few documents, and not against the difference between the states before and after.", "anchors": ["spine_json_lib/spine_animation_editor.py: SpineAnimationEditor.clean_animation, erase_skins, erase_animations, _clean_images_references, _erase_raw_animations_data", "spine_json_lib/spine_graph_container.py: SpineGraphContainer.remove_heads_of_type, remove_leafs_of_type"]}
{"id": "C93", "title": "Messages name the culprit", "statement": "When the library raises an exception, its message names what is wrong. add_node: the id that is taken; add_edge: the end that is missing, a forbidden type or an edge to itself; remove_node_by_id: the id that is not there; get_all_paths: what validate finds, or else the end that is missing, the first one first; SpineVersion: the text that is no version; a name with tags: the first tag that is repeated or unsupported; erase_skins: the first skin that is not there once the names before it are erased; constructors: all unknown attributes, in the order of the document, or else all required ones that are missing; attachments: the type and the name of the first one that cannot be read. Exactly in these cases, and the names can be read from the text of the message (for attachments: the type, if the name of the attachment is known).", "quantifier": "all graphs and arguments, all names and versions, all editors and lists of skins, all classes and dictionaries, all dictionaries of attachments", "why_tests_cant": "Tests look at the class of the exception at most; that the message names the first culprit, and only a culprit, depends on everything done before the failure.", "anchors": ["spine_json_lib/graph/dagraph.py: DAGraph.add_node, add_edge, remove_node_by_id, get_all_paths", "spine_json_lib/graph/spamnode.py: SpamNode._add_child, _add_parent", "spine_json_lib/data/spine_version_type.py: SpineVersion.validate", "spine_json_lib/utils.py: get_tags_from_name", "spine_json_lib/data/spine_anim_data.py: SpineAnimationData.remove_skin", "spine_json_lib/data/data_types/base_type.py: SpineData.__init__", "spine_json_lib/data/data_types/skin.py: parse_skin_attachment_data"]}
{"id": "C94", "title": "Scaling an animation scales the picture", "statement": "After scale_animation with one positive factor for both axes, every bone of the skeleton is drawn by the runtime in the frame it was drawn in before, enlarged by that factor from the position of the root bone, whatever pose the animations put the bones in; so are all points that are fixed to bones and all vertices of meshes that several bones move. With two different factors the picture is stretched by them along the axes of the world.", "quantifier": "all editors, all factors, all poses (so all moments of all animations), all bones, points and weighted vertices; five modes of inheriting the transform of the parent", "why_tests_cant": "Tests compare the attributes of a few bones; which bones have to be scaled so that the picture grows as a whole depends on the modes of all bones on the way to the root.", "anchors": ["spine_json_lib/spine_animation_editor.py: SpineAnimationEditor.scale_animation", "spine_json_lib/data/data_types/bone.py: Bone.scale"]}
{"id": "C95", "title": "Erasing skins leaves the attachments of the remaining skins looking the same", "statement": "After erase_skins in safe mode, every attachment of a remaining skin that the runtime could show before looks as it did: it is of the same kind and has the same attributes, where a linked mesh counts as the mesh it takes its vertices from, with its own name, path, size and colour. Linked meshes are bent by the keyframes that bent them before.", "quantifier": "all editors, all lists of skins, all skins, slots and attachments, all animations", "why_tests_cant": "Tests check that linked meshes of erased skins become meshes; that all attributes and keyframes agree, for chains of links and links without a skin, depends on all skins of the document.", "anchors": ["spine_json_lib/spine_animation_editor.py: SpineAnimationEditor.erase_skins", "spine_json_lib/data/spine_anim_data.py: SpineAnimationData.remove_skin", "spine_json_lib/data/data_types/skin.py: SkinLinkedMesh, SkinMesh"]}
{"id": "C96", "title": "Cleaning leaves linked meshes looking the same", "statement": "After clean_animation, an attachment that is used in a shown slot looks as before, also when it is a linked mesh whose mesh is never used by itself. An attachment looks as before exactly when its slot is shown and neither its name nor a name on the way from the linked mesh to the mesh is among the names that cleaning removes; no attachment that still has a look looks different, and all that still have one are bent by the same keyframes as before.", "quantifier": "all editors reached by any history of calls on names without the suffixes of the library, all skins, slots, attachments and animations", "why_tests_cant": "Whether a mesh that no animation shows is needed depends on the linked meshes of all skins and on who else has its name; tests have few names.", "anchors": ["spine_json_lib/spine_animation_editor.py: SpineAnimationEditor.clean_animation", "spine_json_lib/data/spine_anim_data.py: SpineAnimationData.get_unused_slots_and_attachments"]}
{"id": "C97", "title": "Whole numbers too long for Python: what can be read, what can be saved, and what a failed save leaves", "statement": "Python converts whole numbers of at most L digits (4300 unless set otherwise) between text and number. from_json_file reads exactly the JSON files whose whole numbers have at most L digits, as it would without a limit. to_json raises nothing because of the limit exactly if every whole number of the document has at most L digits; from_json_file then opens the document that was saved. Otherwise to_json raises ValueError whenever the file can be written; the file then holds a beginning of the text, nothing can open it again, whatever it held before, and no other file is affected.", "quantifier": "all limits, all texts, all editors opened on a document and changed by any history of calls, all file systems and path names", "why_tests_cant": "Only numbers of thousands of digits meet the limit, and the file that is lost is the one the caller had before; tests save to new files.", "anchors": ["spine_json_lib/spine_animation_editor.py: SpineAnimationEditor.to_json, from_json_file, scale_animation"]}
{"id": "C98", "title": "A saved document is opened alike on every platform; line ends never matter", "statement": "On platforms whose encoding agrees with ASCII and whose line ends are LF or CRLF, to_json can write every document; the bytes are those of ASCII characters. from_json_file opens them on every such platform, and the document is the one that was saved; the text of save_images_json is read alike too. How the line ends of a file are written, and that open converts them, never changes what from_json_file reads. A file that is opened, edited and saved on one platform after the other comes out as the same text up to line ends, whichever the platforms. Files that some other program wrote are opened alike on every platform if they hold ASCII characters only. (False without that: open is called without an encoding.)", "quantifier": "all encodings over ASCII, both line ends, all editors opened on a document and changed by any history of calls, all texts", "why_tests_cant": "A test runs on one platform, with one encoding and one line end.", "anchors": ["spine_json_lib/spine_animation_editor.py: SpineAnimationEditor.to_json, from_json_file, save_images_json"]}
{"id": "C99", "title": "Strings with lone surrogates survive opening and saving", "statement": "A string of a file, such as a name or a path, may hold escapes of surrogates that are not paired. from_json_file reads it, to_json writes it in printable ASCII, and opening the saved file gives the same string; different strings stay different, and so do the ids made from them. No string that was read has a high surrogate directly before a low one; a string put together in a program that has is saved, but opened as another string.", "quantifier": "all texts of strings, all strings of code points, of any length", "why_tests_cant": "Such strings are left out by tests; which of the 2048 surrogates stand next to which other characters is unbounded.", "anchors": ["spine_json_lib/spine_animation_editor.py: SpineAnimationEditor.from_json_file, to_json, save_images_json"]}
