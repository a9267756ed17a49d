{
 "claims": [
  {
   "property": "C01",
   "status": "proved",
   "theorems": [
    "Spine.Graph.c01_ids_unique",
    "Spine.Graph.c01_add_duplicate",
    "Spine.Graph.c01_add_nonstr",
    "Spine.Graph.c01_add_fresh"
   ],
   "note": "Every history of calls, every factory."
  },
  {
   "property": "C02",
   "status": "proved",
   "theorems": [
    "Spine.Graph.c02_generate_unique_id",
    "Spine.Graph.c02_generate_twice_differ"
   ],
   "note": "Termination by pigeonhole on the node ids; every graph state."
  },
  {
   "property": "C03",
   "status": "proved",
   "theorems": [
    "Spine.Graph.c03_mirror",
    "Spine.Graph.c03_links_nodup"
   ],
   "note": "Invariant over all histories."
  },
  {
   "property": "C04",
   "status": "proved",
   "theorems": [
    "Spine.Graph.c04_remove_absent",
    "Spine.Graph.c04_remove_present"
   ],
   "note": "Every reachable graph."
  },
  {
   "property": "C05",
   "status": "proved",
   "theorems": [
    "Spine.Graph.c05_add_edge_succeeds_iff",
    "Spine.Graph.c05_add_edge_exact",
    "Spine.Graph.c05_add_edge_atomic",
    "Spine.Graph.c05_add_edge_idempotent",
    "Spine.Graph.c05_remove_edge_exact",
    "Spine.Graph.c05_remove_edge_atomic",
    "Spine.Graph.c05_remove_undoes_add"
   ],
   "note": "Every reachable graph and pair of ids."
  },
  {
   "property": "C06",
   "status": "proved",
   "theorems": [
    "Spine.Graph.c06_heads"
   ],
   "note": "Cyclic graphs included; fuel proved sufficient."
  },
  {
   "property": "C07",
   "status": "proved",
   "theorems": [
    "Spine.Graph.c07_tails"
   ],
   "note": "Cyclic graphs included; fuel proved sufficient."
  },
  {
   "property": "C08",
   "status": "proved",
   "theorems": [
    "Spine.Graph.c08_circular_iff_cyclic"
   ],
   "note": "Sound and complete."
  },
  {
   "property": "C09",
   "status": "partial",
   "theorems": [
    "Spine.Graph.c09_reported_reach_cycle_partial",
    "Spine.Graph.c09_false"
   ],
   "note": "False of the code (c09_false: chain a->0->1->2->1 reports 0). Proved instead: every reported id can reach a cycle."
  },
  {
   "property": "C10",
   "status": "proved",
   "theorems": [
    "Spine.Graph.c10_all_paths",
    "Spine.Graph.c10_all_paths_error"
   ],
   "note": "All paths with at most m nodes, each once; errors characterised."
  },
  {
   "property": "C11",
   "status": "partial",
   "theorems": [
    "Spine.Graph.c11_covers_partial",
    "Spine.Graph.c11_forest_partial",
    "Spine.Graph.c11_false",
    "Spine.Graph.c11_false_single_root"
   ],
   "note": "False of the code (c11_false, c11_false_single_root). Proved instead: terminates on every reachable graph, lists every node of an acyclic graph, and is a correct order on forests."
  },
  {
   "property": "C12",
   "status": "proved",
   "theorems": [
    "Spine.Graph.c12_no_forbidden_edge",
    "Spine.Graph.c12_forbidden_rejected",
    "Spine.Graph.c12_forbidden_from_factory"
   ],
   "note": "Every history and factory."
  },
  {
   "property": "C13",
   "status": "proved",
   "theorems": [
    "Spine.Graph.c13_unconnected"
   ],
   "note": "Every reachable graph."
  },
  {
   "property": "C14",
   "status": "proved",
   "theorems": [
    "Spine.c14_graph_ids_apart"
   ],
   "note": "All names and types."
  },
  {
   "property": "C15",
   "status": "partial",
   "theorems": [
    "Spine.c15_base_id_counterexample",
    "Spine.c15_base_id_partial"
   ],
   "note": "False of the code (c15_base_id_counterexample). Proved: the name comes back exactly when it does not contain the suffix."
  },
  {
   "property": "C16",
   "status": "proved",
   "theorems": [
    "Spine.c16_graph_round_trip",
    "Spine.c16_document_is_dict"
   ],
   "note": "Every document from which a graph can be built; order and content."
  },
  {
   "property": "C17",
   "status": "partial",
   "theorems": [
    "Spine.c17_build_iff",
    "Spine.c17_well_formed_partial",
    "Spine.c17_edges",
    "Spine.c17_attachment_edges",
    "Spine.c17_slot_edges_only",
    "Spine.c17_nodes",
    "Spine.c17_none_counterexample"
   ],
   "note": "False of the code for a parentless bone called None (c17_none_counterexample). Proved: the exact condition for success (c17_build_iff), the statement without such bones, and all nodes and edges of the graph."
  },
  {
   "property": "C18",
   "status": "proved",
   "theorems": [
    "Spine.c18_remove_leafs"
   ],
   "note": "Every history of graph calls; removed set characterised by paths (cycles are not removed)."
  },
  {
   "property": "C19",
   "status": "proved",
   "theorems": [
    "Spine.c19_remove_heads"
   ],
   "note": "Every history of graph calls; removed set characterised by paths (cycles are not removed)."
  },
  {
   "property": "C20",
   "status": "proved",
   "theorems": [
    "Spine.c20_writes_exactly_non_defaults",
    "Spine.c20_applies_to_library"
   ],
   "note": "Every class descriptor, every object with distinct attribute names, both version families."
  },
  {
   "property": "C21",
   "status": "proved",
   "theorems": [
    "Spine.c21_reload_same_object",
    "Spine.c21_second_serialisation",
    "Spine.c21_required_null_rejected"
   ],
   "note": "All 22 leaf classes (table cross-checked against the source text by tools/check_table.py)."
  },
  {
   "property": "C22",
   "status": "proved",
   "theorems": [
    "Spine.Editor.c22_reload"
   ],
   "note": "The conditions were added after finding counterexamples to the bare statement (noSlots, nullBone, nullTime in Props/Document.lean)."
  },
  {
   "property": "C23",
   "status": "partial",
   "theorems": [
    "Spine.Editor.c23_reopen_partial",
    "Spine.Editor.c23_same_output_partial",
    "Spine.Editor.c23_counterexample",
    "Spine.Editor.c23_counterexample_path",
    "Spine.Editor.c23_counterexample_null"
   ],
   "note": "False of the code (c23_counterexample: no slots left; c23_counterexample_path: a path copied over a linked mesh; c23_counterexample_null: a slot with a null bone). Proved over all histories for documents with sane names, slot bones, drawOrder times (before 3.8) and no mesh linked to a path: the output loads exactly when a slot is left, with the same output again."
  },
  {
   "property": "C24",
   "status": "proved",
   "theorems": [
    "Spine.c24_unknown_attribute_rejected",
    "Spine.c24_nothing_dropped",
    "Spine.Editor.c24_document",
    "Spine.Editor.c24_rejected",
    "Spine.Editor.c24_odd_shape"
   ],
   "note": "Whole document (c24_document, c24_rejected) for all 26 places of Spec/Places.lean, and per object. A document with several faults may fail earlier with another exception. c24_odd_shape: an object where a list belongs is outside the places and can be dropped silently."
  },
  {
   "property": "C25",
   "status": "proved",
   "theorems": [
    "Spine.c25_missing_required_rejected",
    "Spine.c25_required_table",
    "Spine.Editor.c25_document",
    "Spine.Editor.c25_rejected",
    "Spine.Editor.c25_required"
   ],
   "note": "Whole document (c25_document, c25_rejected) and per object."
  },
  {
   "property": "C26",
   "status": "partial",
   "theorems": [
    "Spine.c26_type_dispatch",
    "Spine.c26_listed_types_rejected",
    "Spine.c26_counterexample",
    "Spine.c26_accepted_partial",
    "Spine.Messages.c26_message_partial",
    "Spine.Messages.c26_message_exact",
    "Spine.Messages.c26_message_counterexample",
    "Spine.Editor.c26_document"
   ],
   "note": "First half proved for every attachment of every document. The second half is false of the code (c26_counterexample, c26_listed_types_rejected). The message of the exception lists region and slot, which it refuses, and not linkedmesh (c26_message_counterexample); c26_message_exact: there are no other such types."
  },
  {
   "property": "C27",
   "status": "proved",
   "theorems": [
    "Spine.Version.c27_accepts_exactly",
    "Spine.Version.c27_else_value_error",
    "Spine.Version.c27_canonical"
   ],
   "note": "Every string; regular expression, split and int() against declarative formats. The 4300-digit limit of int() is not modelled."
  },
  {
   "property": "C28",
   "status": "partial",
   "theorems": [
    "Spine.Version.c28_counterexample",
    "Spine.Version.c28_incomparable",
    "Spine.Version.c28_sound_partial",
    "Spine.Version.c28_same_minor_partial"
   ],
   "note": "False of the code (component-wise comparison): c28_counterexample, c28_incomparable. Proved: positive answers are correct; <= and >= agree when major and minor are equal."
  },
  {
   "property": "C29",
   "status": "proved",
   "theorems": [
    "Spine.Version.c29_eq",
    "Spine.Version.c29_le",
    "Spine.Version.c29_lt",
    "Spine.Version.c29_string_argument"
   ],
   "note": "All versions."
  },
  {
   "property": "C30",
   "status": "partial",
   "theorems": [
    "Spine.Curves.c30_curves_partial",
    "Spine.Curves.c30_others",
    "Spine.Curves.c30_listed",
    "Spine.c30_counterexample",
    "Spine.c30_false",
    "Spine.c30_exact_partial",
    "Spine.c30_newer_untouched_partial"
   ],
   "note": "False of the code (c30_counterexample: 3.7.94 clears nothing). Proved: exact condition, and newer versions are never changed. c30_curves_partial, c30_others, c30_listed: what is cleared is the curve of bone, slot and ik keyframes; those of deform, transform and path keyframes are not listed."
  },
  {
   "property": "C31",
   "status": "partial",
   "theorems": [
    "Spine.c31_counterexample",
    "Spine.c31_counterexample_observed",
    "Spine.c31_exact_partial",
    "Spine.c31_defaults_used_partial",
    "Spine.Switch.c31_same",
    "Spine.Switch.c31_since"
   ],
   "note": "False of the code (c31_counterexample: 4.0). Proved: exact condition; correct for major version 3. c31_same, c31_since: what the switch changes in the written objects, for every kind of object and every attribute."
  },
  {
   "property": "C32",
   "status": "proved",
   "theorems": [
    "Spine.Tags.c32_tags_exact",
    "Spine.Tags.c32_total",
    "Spine.Tags.c32_no_tag",
    "Spine.Tags.c32_unique",
    "Spine.Tags.c32_scale_in_name"
   ],
   "note": "Every name, every Unicode table; uniqueness and totality of the tag decomposition included."
  },
  {
   "property": "C33",
   "status": "proved",
   "theorems": [
    "Spine.AnimData.c33_fuel_enough",
    "Spine.AnimData.c33_terminates_iff",
    "Spine.AnimData.c33_product",
    "Spine.AnimData.c33_otherwise"
   ],
   "note": "Every skeleton, cyclic parent links included; the loop's fuel is proved sufficient. A malformed tag on the way is the third way to stop."
  },
  {
   "property": "C34",
   "status": "proved",
   "theorems": [
    "Spine.Editor.c34_erase_exact"
   ],
   "note": "Every list of names and every editor."
  },
  {
   "property": "C35",
   "status": "partial",
   "theorems": [
    "Spine.Editor.c35_strict_raises_partial",
    "Spine.Editor.c35_all_unknown_partial",
    "Spine.Editor.c35_strict_known",
    "Spine.Editor.c35_lenient_ignores",
    "Spine.Editor.c35_not_a_list",
    "Spine.Editor.c35_counterexample"
   ],
   "note": "False of the code when some names are known (c35_counterexample: the known ones are already deleted when ValueError is raised). Proved: it raises, exactly which animations are gone, nothing changes when all names are unknown, and lenient mode ignores unknown names."
  },
  {
   "property": "C36",
   "status": "proved",
   "theorems": [
    "Spine.Editor.c36_safe_mode",
    "Spine.Editor.c36_fields"
   ],
   "note": "Every editor and argument."
  },
  {
   "property": "C37",
   "status": "proved",
   "theorems": [
    "Spine.Editor.c37_clean",
    "Spine.Editor.c37_erase_animations"
   ],
   "note": "Every editor reached by load and calls with any outcome: bones and iks after clean_animation / erase_animations are those of before, compared as emitted."
  },
  {
   "property": "C38",
   "status": "partial",
   "theorems": [
    "Spine.Editor.c38_slots_partial",
    "Spine.Editor.c38_counterexample"
   ],
   "note": "Editors loaded from documents whose names do not contain the suffixes of the graph ids (Ran), then changed by any history of calls. Without it false of the code (c38_counterexample)."
  },
  {
   "property": "C39",
   "status": "partial",
   "theorems": [
    "Spine.Editor.c39_returned_partial",
    "Spine.Editor.c39_kept_partial",
    "Spine.Editor.c39_list_is_difference_partial",
    "Spine.Editor.c39_counterexample"
   ],
   "note": "Editors loaded from documents whose names do not contain the suffixes of the graph ids (Ran), then changed by any history of calls. Exact iff for the removed slots. Without it false of the code (c39_counterexample)."
  },
  {
   "property": "C40",
   "status": "partial",
   "theorems": [
    "Spine.Editor.c40_used_kept_partial",
    "Spine.Editor.c40_left_iff_partial",
    "Spine.Editor.c40_counterexample"
   ],
   "note": "Editors loaded from documents whose names do not contain the suffixes of the graph ids (Ran), then changed by any history of calls. Exact iff for the attachments that are left. Without it false of the code (c40_counterexample)."
  },
  {
   "property": "C41",
   "status": "partial",
   "theorems": [
    "Spine.Editor.c41_mesh_kept_iff",
    "Spine.Editor.c41_mesh_kept_partial",
    "Spine.Editor.c41_counterexample"
   ],
   "note": "False of the code (c41_counterexample: a name shared by a mesh and a region). Proved: the exact condition for a mesh to be kept, and the statement for names that belong to meshes of shown slots only."
  },
  {
   "property": "C42",
   "status": "partial",
   "theorems": [
    "Spine.Editor.c42_no_reference",
    "Spine.Editor.c42_removed_slots_partial",
    "Spine.Editor.c42_counterexample"
   ],
   "note": "Proved on every editor for the returned names; for the slots that disappear under Ran. Without it false of the code (c42_counterexample)."
  },
  {
   "property": "C43",
   "status": "partial",
   "theorems": [
    "Spine.Editor.c43_skins_and_deform",
    "Spine.Editor.c43_setup_partial",
    "Spine.Editor.c43_keyframes_partial",
    "Spine.Editor.c43_counterexample"
   ],
   "note": "False of the code (c43_counterexample: a keyframe of an animation that does not show the slot). Proved: skins and deform timelines on every editor; setup poses; keyframes of animations that show the slot."
  },
  {
   "property": "C44",
   "status": "partial",
   "theorems": [
    "Spine.DrawOrder.c44_counterexample",
    "Spine.DrawOrder.c44_preserved_iff",
    "Spine.DrawOrder.c44_preserved_partial"
   ],
   "note": "False of the code (c44_counterexample: an offset that becomes zero is dropped although it pins its slot). Proved: an exact iff characterisation, and the statement when no kept offset becomes zero."
  },
  {
   "property": "C45",
   "status": "proved",
   "theorems": [
    "Spine.DrawOrder.c45_rewritten_offsets_valid",
    "Spine.DrawOrder.c45_fails_only_on_unknown_slot",
    "Spine.DrawOrder.c45_nothing_removed",
    "Spine.DrawOrder.c45_rewrite_twice"
   ],
   "note": "Every slot list with distinct names, every set of removed slots, every keyframe; the only failure (unknown slot) is characterised."
  },
  {
   "property": "C46",
   "status": "proved",
   "theorems": [
    "Spine.DrawOrder.c46_reorder_is_spine",
    "Spine.DrawOrder.c46_sequence_unique",
    "Spine.DrawOrder.c46_reorder_perm"
   ],
   "note": "Existence and uniqueness of Spine's drawing sequence; permutation for arbitrary offsets."
  },
  {
   "property": "C47",
   "status": "partial",
   "theorems": [
    "Spine.Editor.c47_load",
    "Spine.Editor.c47_history_partial",
    "Spine.Editor.c47_counterexample"
   ],
   "note": "Right after loading for every document; after any history for editors of Ran (names without the suffixes of the graph ids). Without it false of the code (c47_counterexample)."
  },
  {
   "property": "C48",
   "status": "partial",
   "theorems": [
    "Spine.Editor.c48_load",
    "Spine.Editor.c48_history_partial",
    "Spine.Editor.c48_counterexample",
    "Spine.Editor.c48_counterexample_shared"
   ],
   "note": "Proved right after loading. False of the code after erase_skins and erase_animations (c48_counterexample: attachment without name and path; c48_counterexample_shared: a key with different images). Proved over all histories for tidy documents, as an iff with C47."
  },
  {
   "property": "C49",
   "status": "proved",
   "theorems": [
    "Spine.Editor.c49_removed",
    "Spine.Editor.c49_safe",
    "Spine.Editor.c49_known",
    "Spine.Editor.c49_unknown",
    "Spine.Editor.c49_unknown_first"
   ],
   "note": "Every editor, list of names and mode; the state left by a failing call is characterised too."
  },
  {
   "property": "C50",
   "status": "partial",
   "theorems": [
    "Spine.Editor.c50_single",
    "Spine.Editor.c50_copies_partial",
    "Spine.Editor.c50_no_reference_partial",
    "Spine.Editor.c50_counterexample_linked",
    "Spine.Editor.c50_counterexample_parent",
    "Spine.Editor.c50_counterexample_missing",
    "Spine.Editor.c50_counterexample_default"
   ],
   "note": "False of the code (c50_counterexample_linked, _parent, _missing, _default). Proved: the exact effect for one name, and the statement for any names when the copied meshes are not linked meshes."
  },
  {
   "property": "C51",
   "status": "partial",
   "theorems": [
    "Spine.Editor.c51_reported_partial",
    "Spine.Editor.c51_counterexample"
   ],
   "note": "holds for every document and every history of calls, successful or not, except after a cleaning that a drawOrder offset naming an unknown slot stopped half-way; there it is false of the code when a slot name contains _SLOT (c51_counterexample)"
  },
  {
   "property": "C52",
   "status": "partial",
   "theorems": [
    "Spine.Editor.c52_scale_exact",
    "Spine.Editor.c52_exactly_once_partial",
    "Spine.Editor.c52_no_root",
    "Spine.Editor.c52_counterexample"
   ],
   "note": "False of the code when the root itself does not inherit scale (c52_counterexample: scaled twice). Proved: exact effect, and the statement when root inherits scale."
  },
  {
   "property": "C53",
   "status": "partial",
   "theorems": [
    "Spine.Editor.c53_erase_skins_partial",
    "Spine.Editor.c53_erase_animations_safe_partial",
    "Spine.Editor.c53_counterexample"
   ],
   "note": "erase_skins and safe erase_animations that removes nothing leave the bone scale alone; false of clean_animation (c53_counterexample: bones are rebuilt from the graph, so the applied scale is lost)."
  },
  {
   "property": "C54",
   "status": "partial",
   "theorems": [
    "Spine.Editor.c54_counterexample",
    "Spine.Editor.c54_counterexample_raises",
    "Spine.Editor.c54_second_iff",
    "Spine.Editor.c54_second_partial"
   ],
   "note": "False of the code (c54_counterexample, c54_counterexample_raises). Proved: the exact condition under which a second call changes nothing at all (c54_second_iff), and a sufficient condition on the document before the first call."
  },
  {
   "property": "C55",
   "status": "partial",
   "theorems": [
    "Spine.Editor.c55_fails_only_partial",
    "Spine.Editor.c55_causes_partial",
    "Spine.Editor.c55_fails_iff_partial",
    "Spine.Editor.c55_counterexample"
   ],
   "note": "holds for every document and every history of calls, successful or not, except after a cleaning that a drawOrder offset naming an unknown slot stopped half-way; there it is false of the code (c55_counterexample). c55_fails_iff_partial gives the exact causes when no slot name contains _SLOT"
  },
  {
   "property": "C56",
   "status": "proved",
   "theorems": [
    "Spine.Editor.c56_entries",
    "Spine.Editor.c56_scale"
   ],
   "note": ""
  },
  {
   "property": "C57",
   "status": "proved",
   "theorems": [
    "Spine.AnimData.c57_transparent_exact",
    "Spine.AnimData.c57_bad_colour",
    "Spine.AnimData.c57_last_two"
   ],
   "note": "Every colour string; the text accepted by int(_, 16) is characterised."
  },
  {
   "property": "C58",
   "status": "partial",
   "theorems": [
    "Spine.Files.c58_saved_partial",
    "Spine.Files.c58_exact_partial",
    "Spine.Files.c58_bare_name",
    "Spine.Files.c58_makedirs_depth",
    "Spine.Editor.c58_read_back_partial",
    "Spine.Editor.c58_to_json_partial",
    "Spine.Editor.c58_images",
    "Spine.Editor.c58_save_images_partial",
    "Spine.Editor.c58_bare_name_editor",
    "Spine.Editor.c58_counterexample",
    "Spine.Editor.c58_up_counterexample"
   ],
   "note": "False of the code: a bare file name always fails (c58_bare_name, for every file system), and so does a missing directory followed by .. (c58_up_counterexample). Proved: the exact outcome and effect for every path without .. components, and reading the file back."
  },
  {
   "property": "C59",
   "status": "proved",
   "theorems": [
    "Spine.Editor.c59_single",
    "Spine.Editor.c59_error",
    "Spine.Editor.c59_one_by_one",
    "Spine.Editor.c59_unlinked",
    "Spine.Editor.c59_modes"
   ],
   "note": "For every document and every history of calls, whatever their outcomes (Used), including after a cleaning that stopped half-way."
  },
  {
   "property": "C60",
   "status": "partial",
   "theorems": [
    "Spine.Editor.c60_reported_partial",
    "Spine.Editor.c60_counterexample_key"
   ],
   "note": "False of the code: images that are named only by the key of the attachment are never reported and stay in images_references (c60_counterexample_key). Proved: exact characterisation of the reported images for the histories of C23 (images that are the path or name of an attachment of a removed skin)."
  },
  {
   "property": "C61",
   "status": "partial",
   "theorems": [
    "Spine.Runtime.c61_object_partial",
    "Spine.Runtime.c61_other_values_partial",
    "Spine.Runtime.c61_counterexample_transform",
    "Spine.Runtime.c61_counterexample_spacing",
    "Spine.Runtime.c61_counterexample_event",
    "Spine.Runtime.c61_dropped_partial",
    "Spine.Runtime.c61_kept"
   ],
   "note": "False of the code for scaleX/scaleY of transform constraints (1 dropped, readers assume 0), spacing of path constraints and their keyframes (1 dropped, readers assume 0), and event keyframes whose event has values other than the defaults; counterexamples proved. Proved for every other attribute. The reader's table (Spec/Runtime.lean) is written down from the format, not from /repo. Attributes with an illegal dropped value (offset [], positionMode \"\") are listed as exceptions. c61_dropped_partial: the other direction, no attribute that has a default in the library is written with the value a reader assumes; c61_kept: the attributes without one are written whenever they are set."
  },
  {
   "property": "C62",
   "status": "partial",
   "theorems": [
    "Spine.Editor.c62_drawn_partial",
    "Spine.Editor.c62_picture_partial",
    "Spine.Editor.c62_erase_animations_partial",
    "Spine.Editor.c62_erase_skins_partial",
    "Spine.Editor.c62_counterexample_empty",
    "Spine.Editor.c62_counterexample_none"
   ],
   "note": "Proved for histories without name clashes, documents in which every slot timeline has a keyframe and no attachment is called None (c62_drawn_partial); for the order (c62_picture_partial) also that drawOrder keyframes are applicable and that none leaves a moved slot at its setup position once the removed slots are not counted, since the code drops offsets of 0. False of the code otherwise (c62_counterexample_empty, c62_counterexample_none)."
  },
  {
   "property": "C63",
   "status": "proved",
   "theorems": [
    "Spine.Editor.c63_calls",
    "Spine.Editor.c63_data"
   ],
   "note": "Any document that loads, any list of calls, any outcomes; for the documents as written (c63_calls) and as held (c63_data)."
  },
  {
   "property": "C64",
   "status": "proved",
   "theorems": [
    "Spine.HGraph.c64_links",
    "Spine.HGraph.c64_reach",
    "Spine.HGraph.c64_identity",
    "Spine.HGraph.c64_new",
    "Spine.HGraph.c64_removed",
    "Spine.HGraph.c64_calls",
    "Spine.HGraph.c64_queries"
   ],
   "note": "Model/Heap.lean models node objects in a heap; c64_calls and c64_queries relate it to Model/Graph.lean."
  },
  {
   "property": "C65",
   "status": "partial",
   "theorems": [
    "Spine.Editor.c65_bones",
    "Spine.Editor.c65_constraints",
    "Spine.Editor.c65_events",
    "Spine.Editor.c65_skins",
    "Spine.Editor.c65_calls_partial",
    "Spine.Editor.c65_path_safe",
    "Spine.Editor.c65_counterexample_path",
    "Spine.Editor.c65_counterexample_name"
   ],
   "note": "False of the code for path constraints: clean_animation can remove the slot a path constraint targets and keeps the constraint (c65_counterexample_path); and for slot names containing _SLOT (c65_counterexample_name). Proved for everything else: bones, constraints, events and skins for every document that loads and calls with any outcome; slots and deformed attachments for documents without duplicate keys whose slot names do not contain _SLOT. Calls that do not clean keep path targets (c65_path_safe). References by linked meshes are C50; names of attachments to show are C38 and C60."
  },
  {
   "property": "C66",
   "status": "proved",
   "theorems": [
    "Spine.c66_to_json",
    "Spine.c66_to_json_raises",
    "Spine.c66_document",
    "Spine.c66_set_defaults",
    "Spine.c66_clean",
    "Spine.c66_clean_document"
   ],
   "note": "The traversal is modelled on arbitrary trees (Model/Traverse); c66_document shows that the class-by-class model used everywhere else agrees with it. The tree left behind by an exception is not described, and values are trees without sharing."
  },
  {
   "property": "C67",
   "status": "partial",
   "theorems": [
    "Spine.c67_heads_tails_partial",
    "Spine.c67_validate_order_partial",
    "Spine.Editor.c67_calls_partial",
    "Spine.Editor.c67_shallow_partial",
    "Spine.Editor.c67_short_bones_partial",
    "Spine.Editor.c67_long_bones"
   ],
   "note": "False: for every limit there is a document (bones in a chain) that loads and is cleaned without limit, and on which clean_animation raises RecursionError (c67_counterexample, c67_long_bones). Proved: under every limit the outcome is that without limit or RecursionError, for all graphs and all editor histories; a limit above the longest chain of edges is enough (c67_shallow_partial), for documents without ik constraints 4 more than the longest chain of bones (c67_short_bones_partial). One nested call per frame is counted; frames below the call are not."
  },
  {
   "property": "C68",
   "status": "partial",
   "theorems": [
    "Spine.OGraph.c68_add_partial",
    "Spine.OGraph.c68_spoilt",
    "Spine.OGraph.c68_agree_partial",
    "Spine.OGraph.c68_spine_factory",
    "Spine.OGraph.c68_counterexample"
   ],
   "note": "False of the skeleton graph: the factory returns None for DEFAULT and PATH, add_node stores it, and from then on every query raises AttributeError whatever calls follow (c68_counterexample, c68_spoilt for any factory). Exact outcome of add_node for every factory; agreement of all calls and queries with the graphs of C01-C08 when the factory makes a node of every type asked for."
  },
  {
   "property": "C69",
   "status": "proved",
   "theorems": [
    "Spine.Container.c69_remove_slots",
    "Spine.Container.c69_remove_attachments"
   ],
   "note": "Every graph built by API calls, every list of names; the outcome for unknown and repeated names is exact."
  },
  {
   "property": "C70",
   "status": "proved",
   "theorems": [
    "Spine.c70_counts",
    "Spine.c70_sum"
   ],
   "note": "Every history; handshake over the whole graph."
  },
  {
   "property": "C71",
   "status": "proved",
   "theorems": [
    "Spine.EraserResult.c71_record"
   ],
   "note": "Every sequence of calls."
  },
  {
   "property": "C72",
   "status": "partial",
   "theorems": [
    "Spine.c72_no_slots_partial",
    "Spine.c72_slots",
    "Spine.c72_with_skins_partial",
    "Spine.c72_file"
   ],
   "note": "False of the code for every graph with a slot (c72_slots: KeyError, the written form has no skins). Proved: the same graph without slots, and with the skins added to what was written."
  },
  {
   "property": "C73",
   "status": "partial",
   "theorems": [
    "Spine.c73_parsers_partial",
    "Spine.c73_counterexample",
    "Spine.c73_factory",
    "Spine.c73_errors"
   ],
   "note": "False of the code (c73_counterexample): the reading calls let IGraphParser itself through and raise NotImplementedError. Everything else proved."
  },
  {
   "property": "C74",
   "status": "partial",
   "theorems": [
    "Spine.c74_nodes_partial",
    "Spine.c74_versions_partial",
    "Spine.c74_counterexample"
   ],
   "note": "False of the code for every node and every version (c74_counterexample): AttributeError on comparison with other objects, TypeError on hashing. Proved: equality of nodes of a graph and of versions."
  },
  {
   "property": "C75",
   "status": "partial",
   "theorems": [
    "Spine.c75_get_partial",
    "Spine.c75_counterexample",
    "Spine.c75_new"
   ],
   "note": "False of the code for names of methods and constants of the class (c75_counterexample). Proved for all other names, exactly."
  },
  {
   "property": "C76",
   "status": "partial",
   "theorems": [
    "Spine.Cast.c76_numbers_partial",
    "Spine.Cast.c76_string",
    "Spine.Cast.c76_escapes",
    "Spine.Cast.c76_formatted",
    "Spine.Cast.c76_string_distinct",
    "Spine.Cast.c76_boolean_partial",
    "Spine.Cast.c76_idempotent",
    "Spine.Cast.c76_tags",
    "Spine.Cast.c76_counterexample",
    "Spine.Cast.c76_string_counterexample",
    "Spine.Cast.c76_plain",
    "Spine.Cast.c76_escaped"
   ],
   "note": "False of the code for booleans (c76_counterexample: 'yes' stays a string). Proved exactly for every type, lists and dictionaries cast to string included; which characters beyond ASCII are printable is a parameter. Distinct values can have the same string (c76_string_counterexample). c76_plain, c76_escaped: exactly which characters stay in the text of a list or dictionary."
  },
  {
   "property": "C77",
   "status": "proved",
   "theorems": [
    "Spine.c77_round_trip",
    "Spine.c77_means",
    "Spine.c77_read",
    "Spine.c77_unique",
    "Spine.c77_injective",
    "Spine.c77_ends",
    "Spine.c77_ascii",
    "Spine.c77_keys",
    "Spine.c77_editor",
    "Spine.c77_opened",
    "Spine.c77_layout",
    "Spine.c77_one_line",
    "Spine.c77_open",
    "Spine.c77_not_json"
   ],
   "note": "Every value, every text, every history of calls. Lone surrogates, the limit of digits of an int and the recursion limit of json are not modelled."
  },
  {
   "property": "C78",
   "status": "partial",
   "theorems": [
    "Spine.c78_exact",
    "Spine.c78_not",
    "Spine.c78_editor_partial",
    "Spine.c78_edited",
    "Spine.c78_images",
    "Spine.c78_counterexample",
    "Spine.c78_scale_counterexample"
   ],
   "note": "False of the code (c78_counterexample: a document with 1e999 is written with Infinity; c78_scale_counterexample: overflow in scale_animation). Proved: what is written is JSON exactly if the numbers are finite, and they stay finite unless scale_animation is called."
  },
  {
   "property": "C79",
   "status": "proved",
   "theorems": [
    "Spine.Alias.c79_constructor",
    "Spine.Alias.c79_outcome",
    "Spine.Alias.c79_call",
    "Spine.Alias.c79_apart",
    "Spine.Alias.c79_documents",
    "Spine.Alias.c79_editors"
   ],
   "note": "All programs over a heap of python objects. Objects of the caller are lists, dictionaries and instances of the classes of the library."
  },
  {
   "property": "C80",
   "status": "partial",
   "theorems": [
    "Spine.Alias.c80_programs_partial",
    "Spine.Alias.c80_calls",
    "Spine.Alias.c80_same_values_partial",
    "Spine.Alias.c80_shared_slots"
   ],
   "note": "False when two slots of one skin hold the same dictionary: cleaning then raises KeyError (c80_shared_slots). Proved for all programs whose documents are JSON values without such slots, nested not deeper than the recursion limit allows, that leave the class constants alone, up to the first answer the value model declares unmodelled (non-string names, scaling of non-numbers)."
  },
  {
   "property": "C81",
   "status": "partial",
   "theorems": [
    "Spine.Editor.c81_call_partial",
    "Spine.Editor.c81_histories_partial",
    "Spine.c81_stopped"
   ],
   "note": "False after a cleaning that a drawOrder offset naming an unknown slot has stopped half-way: a later call then succeeds or raises ValueError depending on the order (c81_stopped). Proved for all sequences without such a cleaning; all other failures are allowed."
  },
  {
   "property": "C82",
   "status": "partial",
   "theorems": [
    "Spine.Editor.c82_slots_partial",
    "Spine.Editor.c82_attachments_partial",
    "Spine.Editor.c82_succeeds_partial",
    "Spine.Editor.ComposeEx.c82_counterexample"
   ],
   "note": "False for names that contain the suffixes of the graph ids (c82_counterexample). Proved for editors reached by histories with the name conditions of C38-C40 (Ran)."
  },
  {
   "property": "C83",
   "status": "partial",
   "theorems": [
    "Spine.Editor.c83_split_partial",
    "Spine.Editor.c83_strict_partial",
    "Spine.Editor.c83_then_clean",
    "Spine.Editor.c83_names",
    "Spine.Editor.c83_skins_partial",
    "Spine.Editor.ComposeEx.c83_counterexample",
    "Spine.Editor.Twice.c83_images_partial",
    "Spine.Editor.Twice.c83_images_left_partial",
    "Spine.Editor.Twice.c83_counterexample_images"
   ],
   "note": "False when the first call cleans (c83_counterexample); proved with the first call in safe mode. For erase_skins the first call must succeed, and the graphs agree when the second succeeds. The images reported and left agree, for the histories of C60, but for images that the second skins name only by the key of an attachment (c83_images_partial, c83_images_left_partial; false for these, c83_counterexample_images)."
  },
  {
   "property": "C84",
   "status": "proved",
   "theorems": [
    "Spine.Editor.c84_anims_skins",
    "Spine.Editor.c84_scale_anims",
    "Spine.Editor.c84_scale_skins",
    "Spine.Editor.ComposeEx.c84_cleaning"
   ],
   "note": "The document returned by erase_animations shows the other parts as they are at that time, so only the removed names are compared. With cleaning the calls do not commute (c84_cleaning)."
  },
  {
   "property": "C85",
   "status": "proved",
   "theorems": [
    "Spine.Editor.c85_saved",
    "Spine.Editor.c85_places",
    "Spine.Editor.c85_object",
    "Spine.Editor.c85_known",
    "Spine.Editor.c85_nothing_new",
    "Spine.SavedEx.c85_null_name"
   ],
   "note": "That no objects are added is proved for documents with lists where lists are expected. Keyframes of the colour of slots get a null name (c85_null_name)."
  },
  {
   "property": "C86",
   "status": "partial",
   "theorems": [
    "Spine.Editor.c86_lost",
    "Spine.Editor.c86_meaning_partial",
    "Spine.Editor.c86_spine",
    "Spine.SavedEx.c86_counterexample"
   ],
   "note": "False for the Spine runtimes (c86_counterexample): the spacing 1 of a path constraint, the scale 1 of a transform constraint, inheritRotation/inheritScale false of a bone and 0 in an event keyframe are dropped, and the runtimes take another default. Proved for readers with the defaults of the library (c86_meaning_partial), for attributes saved as they are; c86_spine shows which defaults of the runtimes agree. The defaults of the runtimes are part of the specification, not of the repository."
  },
  {
   "property": "C87",
   "status": "partial",
   "theorems": [
    "Spine.KeyOrder.c87_load",
    "Spine.KeyOrder.c87_saved",
    "Spine.KeyOrder.c87_calls_partial",
    "Spine.KeyOrder.c87_edited_partial",
    "Spine.KeyOrder.c87_clean_partial",
    "Spine.KeyOrder.c87_erase_animations_partial",
    "Spine.KeyOrder.c87_erase_skins_partial",
    "Spine.KeyOrder.c87_scale_partial",
    "Spine.KeyOrder.c87_counterexample",
    "Spine.KeyOrder.c87_counterexample_exception",
    "Spine.KeyOrder.c87_counterexample_stopped",
    "Spine.KeyOrder.c87_counterexample_relink"
   ],
   "note": "Calls may raise an exception that is caught: erase_animations and clean_animation when no drawOrder offset names an unknown slot, erase_skins for an unknown skin or when only its cleaning raises, scale_animation unless a bone has a list for its scale (not modelled). False of what erase_skins leaves when a mesh to be copied is missing (c87_counterexample_relink); missing: when rebuilding the graph raises. After a cleaning stopped by a drawOrder offset that names an unknown slot it is false (c87_counterexample_stopped). Which exception is raised depends on the order of keys when a document has two faults (c87_counterexample_exception); scales of images: c87_counterexample, c87_scale_partial."
  },
  {
   "property": "C88",
   "status": "partial",
   "theorems": [
    "Spine.Sessions.c88_same_document_partial",
    "Spine.Sessions.c88_reopen_partial",
    "Spine.Sessions.c88_sessions_partial",
    "Spine.Sessions.c88_one_session_partial",
    "Spine.Sessions.c88_counterexample",
    "Spine.Sessions.c88_counterexample_slots"
   ],
   "note": "For documents with proper names, every slot on a bone, draw order times before 3.8 and no meshes linked to paths (the documents of C23). False of the code after scale_animation until the document is reopened or a skin is erased, since cleaning undoes the scale (c88_counterexample), and when no slot is left, since that document cannot be opened (c88_counterexample_slots). Nothing is claimed about images_references (C48), about scale_animation among the calls, or about the editor after a call that failed. Removed slots are compared as sets of names."
  },
  {
   "property": "C89",
   "status": "partial",
   "theorems": [
    "Spine.Sessions.c89_in_place_partial",
    "Spine.Sessions.c89_resave_partial",
    "Spine.Sessions.c89_failed",
    "Spine.Sessions.c89_counterexample_bare",
    "Spine.Sessions.c89_counterexample_slots"
   ],
   "note": "For the documents of C88 and file names as in C58 (a directory part, no `..`, no file in place of a directory). False of the code for a file named without its directory, which can be opened but not saved (c89_counterexample_bare), and when a session leaves no slot (c89_counterexample_slots). An exception of the file system itself may leave new directories behind (C58); c89_failed is about exceptions of the library."
  },
  {
   "property": "C90",
   "status": "partial",
   "theorems": [
    "Spine.Alias.c90_programs_partial",
    "Spine.Alias.c90_imported_partial",
    "Spine.Alias.c90_saved",
    "Spine.Alias.c90_lost",
    "Spine.Alias.c90_counterexample",
    "Spine.Alias.c90_images_partial",
    "Spine.Alias.c90_images_imported_partial"
   ],
   "note": "For documents not nested deeper than the recursion limit allows; beyond it false (c90_counterexample). Nothing is claimed when a document is read, or a call made, that the model on values declares unmodelled. Unlike in C80 nothing is asked of sharing: what json.load builds shares nothing (put_apart). For documents of any depth: after a save that succeeds the file holds the text of the document (c90_saved), after one that the library rejects it is empty (c90_lost). save_images_json after such a program writes what the model on values says (c90_images_partial, c90_images_imported_partial); the program itself does not contain this step."
  },
  {
   "property": "C91",
   "status": "partial",
   "theorems": [
    "Spine.Editor.c91_drawn_partial",
    "Spine.Editor.c91_order_partial",
    "Spine.Editor.c91_calls_partial",
    "Spine.Editor.c91_file_partial",
    "Spine.Editor.c91_counterexample"
   ],
   "note": "For documents as in C23/C62 (RanOpen: names without the graph suffixes, every slot with a bone; Ordinary: no timeline without keyframes, no attachment called None), some slot left, and meshes not linked to an erased skin; for a timeline without keyframes it is false (c91_counterexample)."
  },
  {
   "property": "C92",
   "status": "partial",
   "theorems": [
    "Spine.Editor.Console.c92_same",
    "Spine.Editor.Console.c92_images",
    "Spine.Editor.Console.c92_text",
    "Spine.Editor.Console.c92_clean_partial",
    "Spine.Editor.Console.c92_erase_animations_partial",
    "Spine.Editor.Console.c92_erase_skins_partial",
    "Spine.Editor.Console.c92_failed_partial",
    "Spine.Editor.Console.c92_message",
    "Spine.Editor.Console.c92_counterexample"
   ],
   "note": "Images, text and message: every editor. Slots and attachments: for editors reached as in C23 (Ran) whose attachment names do not contain _ATTACHMENT; with such a name the printed name is another one (c92_counterexample)."
  },
  {
   "property": "C93",
   "status": "proved",
   "theorems": [
    "Spine.Messages.c93_same_graph",
    "Spine.Messages.c93_same",
    "Spine.Messages.c93_add_node",
    "Spine.Messages.c93_remove_node",
    "Spine.Messages.c93_add_edge",
    "Spine.Messages.c93_paths",
    "Spine.Messages.c93_version",
    "Spine.Messages.c93_tags",
    "Spine.Messages.c93_erase_skins",
    "Spine.Messages.c93_attributes",
    "Spine.Messages.c93_attachment_type",
    "Spine.Messages.c93_text",
    "Spine.Messages.c93_ambiguous"
   ],
   "note": "Every call and argument; the exceptions Python raises itself have no modelled message. c93_ambiguous: if neither the type nor the name of an attachment is known, the message does not determine them."
  },
  {
   "property": "C94",
   "status": "partial",
   "theorems": [
    "Spine.World.c94_modes",
    "Spine.World.c94_unique",
    "Spine.World.c94_uniform_partial",
    "Spine.World.c94_points_partial",
    "Spine.World.c94_meshes_partial",
    "Spine.World.c94_stretch_partial",
    "Spine.World.c94_counterexample_root",
    "Spine.World.c94_counterexample_roots",
    "Spine.World.c94_counterexample_negative",
    "Spine.World.c94_counterexample_turned"
   ],
   "note": "Proved for one positive factor when the root bone is the only bone without a parent and takes over scale, and for two factors when moreover the root bone is not rotated and all other bones are normal. c94_modes: the bones the library scales are exactly those that do not take over the scale of their parent in the runtime. False otherwise (c94_counterexample_root, _roots, _negative, _turned). Arithmetic is exact (hypothesis Exact); constraints of the skeleton and the thresholds of the runtime are not considered."
  },
  {
   "property": "C95",
   "status": "partial",
   "theorems": [
    "Spine.Meshes.c95_unique",
    "Spine.Meshes.c95_bends_unique",
    "Spine.Meshes.c95_looks_partial",
    "Spine.Meshes.c95_bends_partial",
    "Spine.Meshes.c95_counterexample_colour",
    "Spine.Meshes.c95_counterexample_parent",
    "Spine.Meshes.c95_counterexample_default",
    "Spine.Meshes.c95_counterexample_linked",
    "Spine.Meshes.c95_counterexample_bent"
   ],
   "note": "Proved for all editors in safe mode when the linked meshes of erased skins name the skin, are linked to plain meshes under their own name with their own colour, and (for keyframes) do not follow the deform timelines of an erased skin (Tame). False otherwise: c95_counterexample_colour, _parent, _default, _linked, _bent. That the look and the keyframes are determined: c95_unique, c95_bends_unique."
  },
  {
   "property": "C96",
   "status": "partial",
   "theorems": [
    "Spine.Meshes.c96_same",
    "Spine.Meshes.c96_exact",
    "Spine.Meshes.c96_looks_partial",
    "Spine.Meshes.c96_bends",
    "Spine.Meshes.c96_counterexample_middle",
    "Spine.Meshes.c96_counterexample_shared"
   ],
   "note": "Proved exactly (c96_exact, c96_same, c96_bends) for Ran editors; the first sentence of the statement is proved when all names on the way to the mesh are used or belong to meshes of shown slots only (c96_looks_partial). False otherwise: a linked mesh between two others is removed (c96_counterexample_middle), and a mesh is removed with an unused image of the same name (c96_counterexample_shared)."
  },
  {
   "property": "C97",
   "status": "proved",
   "theorems": [
    "Spine.Digits.c97_read",
    "Spine.Digits.c97_read_same",
    "Spine.Digits.c97_read_short",
    "Spine.Digits.c97_write",
    "Spine.Digits.c97_write_cut",
    "Spine.Digits.c97_write_part",
    "Spine.Digits.c97_read_back",
    "Spine.Digits.c97_lost",
    "Spine.Digits.c97_save_same",
    "Spine.Digits.c97_save_fails",
    "Spine.Digits.c97_saved",
    "Spine.Digits.c97_destroyed",
    "Spine.Digits.c97_read_or",
    "Spine.Digits.c97_read_error",
    "Spine.Digits.c97_read_refused"
   ],
   "note": "Reading: c97_read, c97_read_same, c97_read_short; how it fails: c97_read_or, c97_read_error, c97_read_refused. Writing: c97_write, c97_write_cut, c97_write_part, c97_lost, c97_read_back. Files: c97_save_same, c97_save_fails, c97_saved. c97_destroyed: with the limit of 4300 digits, scaling by ten and saving destroys a file that could be opened."
  },
  {
   "property": "C98",
   "status": "partial",
   "theorems": [
    "Spine.Bytes.c98_line_ends",
    "Spine.Bytes.c98_open",
    "Spine.Bytes.c98_texts",
    "Spine.Bytes.c98_written",
    "Spine.Bytes.c98_portable",
    "Spine.Bytes.c98_ascii_partial",
    "Spine.Bytes.c98_sessions",
    "Spine.Bytes.c98_utf8",
    "Spine.Bytes.c98_strict",
    "Spine.Bytes.c98_byte_order_mark",
    "Spine.Bytes.c98_counterexample",
    "Spine.Bytes.c98_counterexample_error"
   ],
   "note": "Proved for what the library writes (c98_written, c98_texts, c98_portable), for files edited on one platform after the other (c98_sessions), for line ends (c98_line_ends, c98_open, c98_utf8) and for files of ASCII characters (c98_ascii_partial). False for other files: c98_counterexample (a name in UTF-8 is opened as another name on Windows, without an error), c98_counterexample_error. c98_byte_order_mark: a file with a byte order mark is never opened where the encoding is UTF-8. c98_strict: where the encoding is UTF-8 only the bytes of a text are opened."
  },
  {
   "property": "C99",
   "status": "proved",
   "theorems": [
    "Spine.Surrogates.c99_written",
    "Spine.Surrogates.c99_exact",
    "Spine.Surrogates.c99_read",
    "Spine.Surrogates.c99_again",
    "Spine.Surrogates.c99_distinct",
    "Spine.Surrogates.c99_ids",
    "Spine.Surrogates.c99_same_text",
    "Spine.Surrogates.c99_same_string",
    "Spine.Surrogates.c99_only",
    "Spine.Surrogates.c99_ascii",
    "Spine.Surrogates.c99_counterexample",
    "Spine.Surrogates.c99_fails",
    "Spine.Surrogates.c99_refused"
   ],
   "note": "About the strings of a file, one by one; the syntax around them is that of C77, whose model has no surrogates. c99_exact is the exact condition for every string of code points, c99_counterexample the string that is opened as another one; c99_same_text, c99_same_string and c99_only: on strings without surrogates this is the reading and writing of C77. c99_fails: reading ends and fails only with ValueError; c99_refused: what C77 refuses is refused."
  }
 ]
}