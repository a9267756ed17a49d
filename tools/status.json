{
 "C01": [
  "proved",
  "Every history of calls, every factory."
 ],
 "C02": [
  "proved",
  "Termination by pigeonhole on the node ids; every graph state."
 ],
 "C03": [
  "proved",
  "Invariant over all histories."
 ],
 "C04": [
  "proved",
  "Every reachable graph."
 ],
 "C05": [
  "proved",
  "Every reachable graph and pair of ids."
 ],
 "C06": [
  "proved",
  "Cyclic graphs included; fuel proved sufficient."
 ],
 "C07": [
  "proved",
  "Cyclic graphs included; fuel proved sufficient."
 ],
 "C08": [
  "proved",
  "Sound and complete."
 ],
 "C09": [
  "partial",
  "False of the code (c09_false: chain a->0->1->2->1 reports 0). Proved instead: every reported id can reach a cycle."
 ],
 "C10": [
  "proved",
  "All paths with at most m nodes, each once; errors characterised."
 ],
 "C11": [
  "partial",
  "False of the code (c11_false, c11_false_single_root). Proved instead: terminates on every reachable graph, lists every node of an acyclic graph, and is a correct order on forests."
 ],
 "C12": [
  "proved",
  "Every history and factory."
 ],
 "C13": [
  "proved",
  "Every reachable graph."
 ],
 "C27": [
  "proved",
  "Every string; regular expression, split and int() against declarative formats. The 4300-digit limit of int() is not modelled."
 ],
 "C28": [
  "partial",
  "False of the code (component-wise comparison): c28_counterexample, c28_incomparable. Proved: positive answers are correct; <= and >= agree when major and minor are equal."
 ],
 "C29": [
  "proved",
  "All versions."
 ],
 "C32": [
  "proved",
  "Every name, every Unicode table; uniqueness and totality of the tag decomposition included."
 ],
 "C44": [
  "partial",
  "False of the code (c44_counterexample: an offset that becomes zero is dropped although it pins its slot). Proved: an exact iff characterisation, and the statement when no kept offset becomes zero."
 ],
 "C45": [
  "proved",
  "Every slot list with distinct names, every set of removed slots, every keyframe; the only failure (unknown slot) is characterised."
 ],
 "C46": [
  "proved",
  "Existence and uniqueness of Spine's drawing sequence; permutation for arbitrary offsets."
 ],
 "C20": [
  "proved",
  "Every class descriptor, every object with distinct attribute names, both version families."
 ],
 "C21": [
  "proved",
  "All 22 leaf classes (table cross-checked against the source text by tools/check_table.py)."
 ],
 "C24": [
  "proved",
  "Whole document (c24_document, c24_rejected) for all 26 places of Spec/Places.lean, and per object. A document with several faults may fail earlier with another exception. c24_odd_shape: an object where a list belongs is outside the places and can be dropped silently."
 ],
 "C25": [
  "proved",
  "Whole document (c25_document, c25_rejected) and per object."
 ],
 "C26": [
  "partial",
  "First half proved for every attachment of every document. The second half is false of the code (c26_counterexample, c26_listed_types_rejected). The message of the exception lists region and slot, which it refuses, and not linkedmesh (c26_message_counterexample); c26_message_exact: there are no other such types."
 ],
 "C30": [
  "partial",
  "False of the code (c30_counterexample: 3.7.94 clears nothing). Proved: exact condition, and newer versions are never changed. c30_curves_partial, c30_others, c30_listed: what is cleared is the curve of bone, slot and ik keyframes; those of deform, transform and path keyframes are not listed."
 ],
 "C31": [
  "partial",
  "False of the code (c31_counterexample: 4.0). Proved: exact condition; correct for major version 3. c31_same, c31_since: what the switch changes in the written objects, for every kind of object and every attribute."
 ],
 "C14": [
  "proved",
  "All names and types."
 ],
 "C15": [
  "partial",
  "False of the code (c15_base_id_counterexample). Proved: the name comes back exactly when it does not contain the suffix."
 ],
 "C16": [
  "proved",
  "Every document from which a graph can be built; order and content."
 ],
 "C17": [
  "partial",
  "False of the code for a parentless bone called None (c17_none_counterexample). Proved: the exact condition for success (c17_build_iff), the statement without such bones, and all nodes and edges of the graph."
 ],
 "C18": [
  "proved",
  "Every history of graph calls; removed set characterised by paths (cycles are not removed)."
 ],
 "C19": [
  "proved",
  "Every history of graph calls; removed set characterised by paths (cycles are not removed)."
 ],
 "C33": [
  "proved",
  "Every skeleton, cyclic parent links included; the loop's fuel is proved sufficient. A malformed tag on the way is the third way to stop."
 ],
 "C34": [
  "proved",
  "Every list of names and every editor."
 ],
 "C35": [
  "partial",
  "False of the code when some names are known (c35_counterexample: the known ones are already deleted when ValueError is raised). Proved: it raises, exactly which animations are gone, nothing changes when all names are unknown, and lenient mode ignores unknown names."
 ],
 "C36": [
  "proved",
  "Every editor and argument."
 ],
 "C52": [
  "partial",
  "False of the code when the root itself does not inherit scale (c52_counterexample: scaled twice). Proved: exact effect, and the statement when root inherits scale."
 ],
 "C57": [
  "proved",
  "Every colour string; the text accepted by int(_, 16) is characterised."
 ],
 "C56": [
  "proved",
  ""
 ],
 "C47": [
  "partial",
  "Right after loading for every document; after any history for editors of Ran (names without the suffixes of the graph ids). Without it false of the code (c47_counterexample)."
 ],
 "C48": [
  "partial",
  "Proved right after loading. False of the code after erase_skins and erase_animations (c48_counterexample: attachment without name and path; c48_counterexample_shared: a key with different images). Proved over all histories for tidy documents, as an iff with C47."
 ],
 "C37": [
  "proved",
  "Every editor reached by load and calls with any outcome: bones and iks after clean_animation / erase_animations are those of before, compared as emitted."
 ],
 "C53": [
  "partial",
  "erase_skins and safe erase_animations that removes nothing leave the bone scale alone; false of clean_animation (c53_counterexample: bones are rebuilt from the graph, so the applied scale is lost)."
 ],
 "C38": [
  "partial",
  "Editors loaded from documents whose names do not contain the suffixes of the graph ids (Ran), then changed by any history of calls. Without it false of the code (c38_counterexample)."
 ],
 "C39": [
  "partial",
  "Editors loaded from documents whose names do not contain the suffixes of the graph ids (Ran), then changed by any history of calls. Exact iff for the removed slots. Without it false of the code (c39_counterexample)."
 ],
 "C40": [
  "partial",
  "Editors loaded from documents whose names do not contain the suffixes of the graph ids (Ran), then changed by any history of calls. Exact iff for the attachments that are left. Without it false of the code (c40_counterexample)."
 ],
 "C41": [
  "partial",
  "False of the code (c41_counterexample: a name shared by a mesh and a region). Proved: the exact condition for a mesh to be kept, and the statement for names that belong to meshes of shown slots only."
 ],
 "C42": [
  "partial",
  "Proved on every editor for the returned names; for the slots that disappear under Ran. Without it false of the code (c42_counterexample)."
 ],
 "C43": [
  "partial",
  "False of the code (c43_counterexample: a keyframe of an animation that does not show the slot). Proved: skins and deform timelines on every editor; setup poses; keyframes of animations that show the slot."
 ],
 "C55": [
  "partial",
  "holds for every document and every history of calls, successful or not, except after a cleaning that a drawOrder offset naming an unknown slot stopped half-way; there it is false of the code (c55_counterexample). c55_fails_iff_partial gives the exact causes when no slot name contains _SLOT"
 ],
 "C54": [
  "partial",
  "False of the code (c54_counterexample, c54_counterexample_raises). Proved: the exact condition under which a second call changes nothing at all (c54_second_iff), and a sufficient condition on the document before the first call."
 ],
 "C49": [
  "proved",
  "Every editor, list of names and mode; the state left by a failing call is characterised too."
 ],
 "C50": [
  "partial",
  "False of the code (c50_counterexample_linked, _parent, _missing, _default). Proved: the exact effect for one name, and the statement for any names when the copied meshes are not linked meshes."
 ],
 "C51": [
  "partial",
  "holds for every document and every history of calls, successful or not, except after a cleaning that a drawOrder offset naming an unknown slot stopped half-way; there it is false of the code when a slot name contains _SLOT (c51_counterexample)"
 ],
 "C22": [
  "proved",
  "The conditions were added after finding counterexamples to the bare statement (noSlots, nullBone, nullTime in Props/Document.lean)."
 ],
 "C23": [
  "partial",
  "False of the code (c23_counterexample: no slots left; c23_counterexample_path: a path copied over a linked mesh; c23_counterexample_null: a slot with a null bone). Proved over all histories for documents with sane names, slot bones, drawOrder times (before 3.8) and no mesh linked to a path: the output loads exactly when a slot is left, with the same output again."
 ],
 "C58": [
  "partial",
  "False of the code: a bare file name always fails (c58_bare_name, for every file system), and so does a missing directory followed by .. (c58_up_counterexample). Proved: the exact outcome and effect for every path without .. components, and reading the file back."
 ],
 "C59": [
  "proved",
  "For every document and every history of calls, whatever their outcomes (Used), including after a cleaning that stopped half-way."
 ],
 "C60": [
  "partial",
  "False of the code: images that are named only by the key of the attachment are never reported and stay in images_references (c60_counterexample_key). Proved: exact characterisation of the reported images for the histories of C23 (images that are the path or name of an attachment of a removed skin)."
 ],
 "C61": [
  "partial",
  "False of the code for scaleX/scaleY of transform constraints (1 dropped, readers assume 0), spacing of path constraints and their keyframes (1 dropped, readers assume 0), and event keyframes whose event has values other than the defaults; counterexamples proved. Proved for every other attribute. The reader's table (Spec/Runtime.lean) is written down from the format, not from /repo. Attributes with an illegal dropped value (offset [], positionMode \"\") are listed as exceptions. c61_dropped_partial: the other direction, no attribute that has a default in the library is written with the value a reader assumes; c61_kept: the attributes without one are written whenever they are set."
 ],
 "C62": [
  "partial",
  "Proved for histories without name clashes, documents in which every slot timeline has a keyframe and no attachment is called None (c62_drawn_partial); for the order (c62_picture_partial) also that drawOrder keyframes are applicable and that none leaves a moved slot at its setup position once the removed slots are not counted, since the code drops offsets of 0. False of the code otherwise (c62_counterexample_empty, c62_counterexample_none)."
 ],
 "C63": [
  "proved",
  "Any document that loads, any list of calls, any outcomes; for the documents as written (c63_calls) and as held (c63_data)."
 ],
 "C64": [
  "proved",
  "Model/Heap.lean models node objects in a heap; c64_calls and c64_queries relate it to Model/Graph.lean."
 ],
 "C65": [
  "partial",
  "False of the code for path constraints: clean_animation can remove the slot a path constraint targets and keeps the constraint (c65_counterexample_path); and for slot names containing _SLOT (c65_counterexample_name). Proved for everything else: bones, constraints, events and skins for every document that loads and calls with any outcome; slots and deformed attachments for documents without duplicate keys whose slot names do not contain _SLOT. Calls that do not clean keep path targets (c65_path_safe). References by linked meshes are C50; names of attachments to show are C38 and C60."
 ],
 "C66": [
  "proved",
  "The traversal is modelled on arbitrary trees (Model/Traverse); c66_document shows that the class-by-class model used everywhere else agrees with it. The tree left behind by an exception is not described, and values are trees without sharing."
 ],
 "C67": [
  "partial",
  "False: for every limit there is a document (bones in a chain) that loads and is cleaned without limit, and on which clean_animation raises RecursionError (c67_counterexample, c67_long_bones). Proved: under every limit the outcome is that without limit or RecursionError, for all graphs and all editor histories; a limit above the longest chain of edges is enough (c67_shallow_partial), for documents without ik constraints 4 more than the longest chain of bones (c67_short_bones_partial). One nested call per frame is counted; frames below the call are not."
 ],
 "C68": [
  "partial",
  "False of the skeleton graph: the factory returns None for DEFAULT and PATH, add_node stores it, and from then on every query raises AttributeError whatever calls follow (c68_counterexample, c68_spoilt for any factory). Exact outcome of add_node for every factory; agreement of all calls and queries with the graphs of C01-C08 when the factory makes a node of every type asked for."
 ],
 "C69": [
  "proved",
  "Every graph built by API calls, every list of names; the outcome for unknown and repeated names is exact."
 ],
 "C70": [
  "proved",
  "Every history; handshake over the whole graph."
 ],
 "C71": [
  "proved",
  "Every sequence of calls."
 ],
 "C72": [
  "partial",
  "False of the code for every graph with a slot (c72_slots: KeyError, the written form has no skins). Proved: the same graph without slots, and with the skins added to what was written."
 ],
 "C73": [
  "partial",
  "False of the code (c73_counterexample): the reading calls let IGraphParser itself through and raise NotImplementedError. Everything else proved."
 ],
 "C74": [
  "partial",
  "False of the code for every node and every version (c74_counterexample): AttributeError on comparison with other objects, TypeError on hashing. Proved: equality of nodes of a graph and of versions."
 ],
 "C75": [
  "partial",
  "False of the code for names of methods and constants of the class (c75_counterexample). Proved for all other names, exactly."
 ],
 "C76": [
  "partial",
  "False of the code for booleans (c76_counterexample: 'yes' stays a string). Proved exactly for every type, lists and dictionaries cast to string included; which characters beyond ASCII are printable is a parameter. Distinct values can have the same string (c76_string_counterexample). c76_plain, c76_escaped: exactly which characters stay in the text of a list or dictionary."
 ],
 "C77": [
  "proved",
  "Every value, every text, every history of calls. Lone surrogates, the limit of digits of an int and the recursion limit of json are not modelled."
 ],
 "C78": [
  "partial",
  "False of the code (c78_counterexample: a document with 1e999 is written with Infinity; c78_scale_counterexample: overflow in scale_animation). Proved: what is written is JSON exactly if the numbers are finite, and they stay finite unless scale_animation is called."
 ],
 "C79": [
  "proved",
  "All programs over a heap of python objects. Objects of the caller are lists, dictionaries and instances of the classes of the library."
 ],
 "C80": [
  "partial",
  "False when two slots of one skin hold the same dictionary: cleaning then raises KeyError (c80_shared_slots). Proved for all programs whose documents are JSON values without such slots, nested not deeper than the recursion limit allows, that leave the class constants alone, up to the first answer the value model declares unmodelled (non-string names, scaling of non-numbers)."
 ],
 "C81": [
  "partial",
  "False after a cleaning that a drawOrder offset naming an unknown slot has stopped half-way: a later call then succeeds or raises ValueError depending on the order (c81_stopped). Proved for all sequences without such a cleaning; all other failures are allowed."
 ],
 "C82": [
  "partial",
  "False for names that contain the suffixes of the graph ids (c82_counterexample). Proved for editors reached by histories with the name conditions of C38-C40 (Ran)."
 ],
 "C83": [
  "partial",
  "False when the first call cleans (c83_counterexample); proved with the first call in safe mode. For erase_skins the first call must succeed, and the graphs agree when the second succeeds. The images reported and left agree, for the histories of C60, but for images that the second skins name only by the key of an attachment (c83_images_partial, c83_images_left_partial; false for these, c83_counterexample_images)."
 ],
 "C84": [
  "proved",
  "The document returned by erase_animations shows the other parts as they are at that time, so only the removed names are compared. With cleaning the calls do not commute (c84_cleaning)."
 ],
 "C85": [
  "proved",
  "That no objects are added is proved for documents with lists where lists are expected. Keyframes of the colour of slots get a null name (c85_null_name)."
 ],
 "C86": [
  "partial",
  "False for the Spine runtimes (c86_counterexample): the spacing 1 of a path constraint, the scale 1 of a transform constraint, inheritRotation/inheritScale false of a bone and 0 in an event keyframe are dropped, and the runtimes take another default. Proved for readers with the defaults of the library (c86_meaning_partial), for attributes saved as they are; c86_spine shows which defaults of the runtimes agree. The defaults of the runtimes are part of the specification, not of the repository."
 ],
 "C87": [
  "partial",
  "Calls may raise an exception that is caught: erase_animations and clean_animation when no drawOrder offset names an unknown slot, erase_skins for an unknown skin or when only its cleaning raises, scale_animation unless a bone has a list for its scale (not modelled). False of what erase_skins leaves when a mesh to be copied is missing (c87_counterexample_relink); missing: when rebuilding the graph raises. After a cleaning stopped by a drawOrder offset that names an unknown slot it is false (c87_counterexample_stopped). Which exception is raised depends on the order of keys when a document has two faults (c87_counterexample_exception); scales of images: c87_counterexample, c87_scale_partial."
 ],
 "C88": [
  "partial",
  "For documents with proper names, every slot on a bone, draw order times before 3.8 and no meshes linked to paths (the documents of C23). False of the code after scale_animation until the document is reopened or a skin is erased, since cleaning undoes the scale (c88_counterexample), and when no slot is left, since that document cannot be opened (c88_counterexample_slots). Nothing is claimed about images_references (C48), about scale_animation among the calls, or about the editor after a call that failed. Removed slots are compared as sets of names."
 ],
 "C89": [
  "partial",
  "For the documents of C88 and file names as in C58 (a directory part, no `..`, no file in place of a directory). False of the code for a file named without its directory, which can be opened but not saved (c89_counterexample_bare), and when a session leaves no slot (c89_counterexample_slots). An exception of the file system itself may leave new directories behind (C58); c89_failed is about exceptions of the library."
 ],
 "C90": [
  "partial",
  "For documents not nested deeper than the recursion limit allows; beyond it false (c90_counterexample). Nothing is claimed when a document is read, or a call made, that the model on values declares unmodelled. Unlike in C80 nothing is asked of sharing: what json.load builds shares nothing (put_apart). For documents of any depth: after a save that succeeds the file holds the text of the document (c90_saved), after one that the library rejects it is empty (c90_lost). save_images_json after such a program writes what the model on values says (c90_images_partial, c90_images_imported_partial); the program itself does not contain this step."
 ],
 "C91": [
  "partial",
  "For documents as in C23/C62 (RanOpen: names without the graph suffixes, every slot with a bone; Ordinary: no timeline without keyframes, no attachment called None), some slot left, and meshes not linked to an erased skin; for a timeline without keyframes it is false (c91_counterexample)."
 ],
 "C92": [
  "partial",
  "Images, text and message: every editor. Slots and attachments: for editors reached as in C23 (Ran) whose attachment names do not contain _ATTACHMENT; with such a name the printed name is another one (c92_counterexample)."
 ],
 "C93": [
  "proved",
  "Every call and argument; the exceptions Python raises itself have no modelled message. c93_ambiguous: if neither the type nor the name of an attachment is known, the message does not determine them."
 ],
 "C94": [
  "partial",
  "Proved for one positive factor when the root bone is the only bone without a parent and takes over scale, and for two factors when moreover the root bone is not rotated and all other bones are normal. c94_modes: the bones the library scales are exactly those that do not take over the scale of their parent in the runtime. False otherwise (c94_counterexample_root, _roots, _negative, _turned). Arithmetic is exact (hypothesis Exact); constraints of the skeleton and the thresholds of the runtime are not considered."
 ],
 "C95": [
  "partial",
  "Proved for all editors in safe mode when the linked meshes of erased skins name the skin, are linked to plain meshes under their own name with their own colour, and (for keyframes) do not follow the deform timelines of an erased skin (Tame). False otherwise: c95_counterexample_colour, _parent, _default, _linked, _bent. That the look and the keyframes are determined: c95_unique, c95_bends_unique."
 ],
 "C96": [
  "partial",
  "Proved exactly (c96_exact, c96_same, c96_bends) for Ran editors; the first sentence of the statement is proved when all names on the way to the mesh are used or belong to meshes of shown slots only (c96_looks_partial). False otherwise: a linked mesh between two others is removed (c96_counterexample_middle), and a mesh is removed with an unused image of the same name (c96_counterexample_shared)."
 ],
 "C97": [
  "proved",
  "Reading: c97_read, c97_read_same, c97_read_short; how it fails: c97_read_or, c97_read_error, c97_read_refused. Writing: c97_write, c97_write_cut, c97_write_part, c97_lost, c97_read_back. Files: c97_save_same, c97_save_fails, c97_saved. c97_destroyed: with the limit of 4300 digits, scaling by ten and saving destroys a file that could be opened."
 ],
 "C98": [
  "partial",
  "Proved for what the library writes (c98_written, c98_texts, c98_portable), for files edited on one platform after the other (c98_sessions), for line ends (c98_line_ends, c98_open, c98_utf8) and for files of ASCII characters (c98_ascii_partial). False for other files: c98_counterexample (a name in UTF-8 is opened as another name on Windows, without an error), c98_counterexample_error. c98_byte_order_mark: a file with a byte order mark is never opened where the encoding is UTF-8. c98_strict: where the encoding is UTF-8 only the bytes of a text are opened."
 ],
 "C99": [
  "proved",
  "About the strings of a file, one by one; the syntax around them is that of C77, whose model has no surrogates. c99_exact is the exact condition for every string of code points, c99_counterexample the string that is opened as another one; c99_same_text, c99_same_string and c99_only: on strings without surrogates this is the reading and writing of C77. c99_fails: reading ends and fails only with ValueError; c99_refused: what C77 refuses is refused."
 ]
}