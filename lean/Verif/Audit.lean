import Verif.Props.Leaf
import Verif.Props.Hints
import Verif.Props.Union
import Verif.Props.Container
import Verif.Props.Deep
import Verif.Props.Coercers
import Verif.Props.Validators
import Verif.Props.Select
import Verif.Props.Class
import Verif.Props.New
import Verif.Props.Export
import Verif.Props.Factory
import Verif.Props.Parse
import Verif.Props.Equality
import Verif.Props.Order
import Verif.Props.Roundtrip
import Verif.Props.Pickle
import Verif.Props.Exporter
import Verif.Props.Honest
import Verif.Props.Stable
import Verif.Props.RecordTypes
import Verif.Props.Tokens
import Verif.Props.Program
import Verif.Props.Vocabulary
import Verif.Props.SubKey
import Verif.Props.Legal
import Verif.Props.Literal
import Verif.Props.Depth
import Verif.Props.Tags
import Verif.Props.Files
import Verif.Props.Floats
import Verif.Props.Raises
import Verif.Props.Convert
import Verif.Props.Incomparable
import Verif.Props.Foreign
import Verif.Props.Declares
import Verif.Props.Effects
import Verif.Props.Extras
import Verif.Props.Safety
import Verif.Props.OneShot
import Verif.Props.Special
import Verif.Props.Keys
import Verif.Props.Sort
import Verif.Props.Repr
import Verif.Props.Kin
import Verif.Props.Lazy
import Verif.Props.Threads
import Verif.Props.Override
import Verif.Props.Copying
import Verif.Props.Nested
import Verif.Props.Documents
import Verif.Props.Archive
import Verif.Props.Pickling
import Verif.Props.Copies
import Verif.Props.Lifetime
import Verif.Props.Accepts
import Verif.Props.Dispatch
import Verif.Props.Printing
import Verif.Props.Comparing
/-
The axioms of every theorem named in MANIFEST.json (generated by tools/gen_audit.py; the build checks each entry).
-/

/-- info: 'Records.C01_empty_select_is_identity' depends on axioms: [propext, Quot.sound] -/
#guard_msgs (whitespace := lax) in #print axioms Records.C01_empty_select_is_identity

/-- info: 'Records.C01_select_refines_script' depends on axioms: [propext, Quot.sound] -/
#guard_msgs (whitespace := lax) in #print axioms Records.C01_select_refines_script

/-- info: 'Records.C02_count' depends on axioms: [propext, Quot.sound] -/
#guard_msgs (whitespace := lax) in #print axioms Records.C02_count

/-- info: 'Records.C02_no_silent_loss' depends on axioms: [propext, Quot.sound] -/
#guard_msgs (whitespace := lax) in #print axioms Records.C02_no_silent_loss

/-- info: 'Records.C03_chain_eq_single' depends on axioms: [propext, Classical.choice, Quot.sound] -/
#guard_msgs (whitespace := lax) in #print axioms Records.C03_chain_eq_single

/-- info: 'Records.C03_merge_assoc' depends on axioms: [propext, Quot.sound] -/
#guard_msgs (whitespace := lax) in #print axioms Records.C03_merge_assoc

/-- info: 'Records.C03_merge_concatenates' depends on axioms: [propext, Quot.sound] -/
#guard_msgs (whitespace := lax) in #print axioms Records.C03_merge_concatenates

/-- info: 'Records.C03_merge_empty' depends on axioms: [propext, Quot.sound] -/
#guard_msgs (whitespace := lax) in #print axioms Records.C03_merge_empty

/-- info: 'Records.C03_merge_no_args' depends on axioms: [propext] -/
#guard_msgs (whitespace := lax) in #print axioms Records.C03_merge_no_args

/-- info: 'Records.C04_refuted_for_one_shot' depends on axioms: [propext] -/
#guard_msgs (whitespace := lax) in #print axioms Records.C04_refuted_for_one_shot

/-- info: 'Records.C04_select_reusable' depends on axioms: [propext, Quot.sound] -/
#guard_msgs (whitespace := lax) in #print axioms Records.C04_select_reusable

/-- info: 'Records.C04_truth' depends on axioms: [propext, Quot.sound] -/
#guard_msgs (whitespace := lax) in #print axioms Records.C04_truth

/-- info: 'Records.C05_direct_call' depends on axioms: [propext, Quot.sound] -/
#guard_msgs (whitespace := lax) in #print axioms Records.C05_direct_call

/-- info: 'Records.C05_from_mapping_frame' depends on axioms: [propext, Quot.sound] -/
#guard_msgs (whitespace := lax) in #print axioms Records.C05_from_mapping_frame

/-- info: 'Records.C05_halfway' depends on axioms: [propext, Quot.sound] -/
#guard_msgs (whitespace := lax) in #print axioms Records.C05_halfway

/-- info: 'Records.C06_maybe_rename_exact' depends on axioms: [propext, Quot.sound] -/
#guard_msgs (whitespace := lax) in #print axioms Records.C06_maybe_rename_exact

/-- info: 'Records.C06_refuted' depends on axioms: [propext, Classical.choice, Quot.sound] -/
#guard_msgs (whitespace := lax) in #print axioms Records.C06_refuted

/-- info: 'Records.C07_merge_is_sequential' depends on axioms: [propext, Quot.sound] -/
#guard_msgs (whitespace := lax) in #print axioms Records.C07_merge_is_sequential

/-- info: 'Records.C07_refuted_in_general' depends on axioms: [propext] -/
#guard_msgs (whitespace := lax) in #print axioms Records.C07_refuted_in_general

/-- info: 'Records.C08_clamp_idempotent' depends on axioms: [propext, Quot.sound] -/
#guard_msgs (whitespace := lax) in #print axioms Records.C08_clamp_idempotent

/-- info: 'Records.C08_clamp_init' depends on axioms: [propext, Quot.sound] -/
#guard_msgs (whitespace := lax) in #print axioms Records.C08_clamp_init

/-- info: 'Records.C08_clamp_monotone' depends on axioms: [propext, Quot.sound] -/
#guard_msgs (whitespace := lax) in #print axioms Records.C08_clamp_monotone

/-- info: 'Records.C08_clamp_nearest' depends on axioms: [propext, Quot.sound] -/
#guard_msgs (whitespace := lax) in #print axioms Records.C08_clamp_nearest

/-- info: 'Records.C08_nan_passes_clamp' depends on axioms: [propext, Quot.sound] -/
#guard_msgs (whitespace := lax) in #print axioms Records.C08_nan_passes_clamp

/-- info: 'Records.C09_cyclic' depends on axioms: [propext, Classical.choice, Quot.sound] -/
#guard_msgs (whitespace := lax) in #print axioms Records.C09_cyclic

/-- info: 'Records.C09_cyclic_degenerate' depends on axioms: [propext, Classical.choice, Quot.sound] -/
#guard_msgs (whitespace := lax) in #print axioms Records.C09_cyclic_degenerate

/-- info: 'Records.C10_default' depends on axioms: [propext, Classical.choice, Quot.sound] -/
#guard_msgs (whitespace := lax) in #print axioms Records.C10_default

/-- info: 'Records.C10_within_iff' depends on axioms: [propext, Quot.sound] -/
#guard_msgs (whitespace := lax) in #print axioms Records.C10_within_iff

/-- info: 'Records.C10_within_init' depends on axioms: [propext, Classical.choice, Quot.sound] -/
#guard_msgs (whitespace := lax) in #print axioms Records.C10_within_init

/-- info: 'Records.C11_assert' depends on axioms: [propext, Quot.sound] -/
#guard_msgs (whitespace := lax) in #print axioms Records.C11_assert

/-- info: 'Records.C11_condition_raises' depends on axioms: [propext] -/
#guard_msgs (whitespace := lax) in #print axioms Records.C11_condition_raises

/-- info: 'Records.C11_conditions' depends on axioms: [propext] -/
#guard_msgs (whitespace := lax) in #print axioms Records.C11_conditions

/-- info: 'Records.C12_compose' depends on axioms: [propext, Quot.sound] -/
#guard_msgs (whitespace := lax) in #print axioms Records.C12_compose

/-- info: 'Records.C12_exception_stops' depends on axioms: [propext, Quot.sound] -/
#guard_msgs (whitespace := lax) in #print axioms Records.C12_exception_stops

/-- info: 'Records.C12_laws' depends on axioms: [propext, Quot.sound] -/
#guard_msgs (whitespace := lax) in #print axioms Records.C12_laws

/-- info: 'Records.C13_later' depends on axioms: [propext, Quot.sound] -/
#guard_msgs (whitespace := lax) in #print axioms Records.C13_later

/-- info: 'Records.C13_map' depends on axioms: [propext, Quot.sound] -/
#guard_msgs (whitespace := lax) in #print axioms Records.C13_map

/-- info: 'Records.C13_refuted' depends on axioms: [propext, Classical.choice, Quot.sound] -/
#guard_msgs (whitespace := lax) in #print axioms Records.C13_refuted

/-- info: 'Records.C14_calls' depends on axioms: [propext, Classical.choice, Quot.sound] -/
#guard_msgs (whitespace := lax) in #print axioms Records.C14_calls

/-- info: 'Records.C14_explicit' depends on axioms: [propext, Classical.choice, Quot.sound] -/
#guard_msgs (whitespace := lax) in #print axioms Records.C14_explicit

/-- info: 'Records.C14_minimal' depends on axioms: [propext, Classical.choice, Quot.sound] -/
#guard_msgs (whitespace := lax) in #print axioms Records.C14_minimal

/-- info: 'Records.C14_minimal_signed' depends on axioms: [propext, Classical.choice, Quot.sound] -/
#guard_msgs (whitespace := lax) in #print axioms Records.C14_minimal_signed

/-- info: 'Records.C14_rejects' depends on axioms: [propext] -/
#guard_msgs (whitespace := lax) in #print axioms Records.C14_rejects

/-- info: 'Records.C14_roundtrip' depends on axioms: [propext, Classical.choice, Quot.sound] -/
#guard_msgs (whitespace := lax) in #print axioms Records.C14_roundtrip

/-- info: 'Records.C15_calls' depends on axioms: [propext, Classical.choice, Quot.sound] -/
#guard_msgs (whitespace := lax) in #print axioms Records.C15_calls

/-- info: 'Records.C15_whole' depends on axioms: [propext, Classical.choice, Quot.sound] -/
#guard_msgs (whitespace := lax) in #print axioms Records.C15_whole

/-- info: 'Records.C16_falsish' depends on axioms: [propext] -/
#guard_msgs (whitespace := lax) in #print axioms Records.C16_falsish

/-- info: 'Records.C16_field' depends on axioms: [propext, Quot.sound] -/
#guard_msgs (whitespace := lax) in #print axioms Records.C16_field

/-- info: 'Records.C16_field_other' depends on axioms: [propext] -/
#guard_msgs (whitespace := lax) in #print axioms Records.C16_field_other

/-- info: 'Records.C16_from_integer' depends on axioms: [propext] -/
#guard_msgs (whitespace := lax) in #print axioms Records.C16_from_integer

/-- info: 'Records.C17_loose' depends on axioms: [propext, Quot.sound] -/
#guard_msgs (whitespace := lax) in #print axioms Records.C17_loose

/-- info: 'Records.C17_loose_empty_tuple' depends on axioms: [propext, Quot.sound] -/
#guard_msgs (whitespace := lax) in #print axioms Records.C17_loose_empty_tuple

/-- info: 'Records.C17_not_unpackable' depends on axioms: [propext] -/
#guard_msgs (whitespace := lax) in #print axioms Records.C17_not_unpackable

/-- info: 'Records.C17_only_concrete' depends on axioms: [propext] -/
#guard_msgs (whitespace := lax) in #print axioms Records.C17_only_concrete

/-- info: 'Records.C17_unconstrained' depends on axioms: [propext, Quot.sound] -/
#guard_msgs (whitespace := lax) in #print axioms Records.C17_unconstrained

/-- info: 'Records.C17_unpack_each' depends on axioms: [propext, Classical.choice, Quot.sound] -/
#guard_msgs (whitespace := lax) in #print axioms Records.C17_unpack_each

/-- info: 'Records.C17_unpack_fixed' depends on axioms: [propext, Classical.choice, Quot.sound] -/
#guard_msgs (whitespace := lax) in #print axioms Records.C17_unpack_fixed

/-- info: 'Records.C17_unpack_map' depends on axioms: [propext, Classical.choice, Quot.sound] -/
#guard_msgs (whitespace := lax) in #print axioms Records.C17_unpack_map

/-- info: 'Records.C18_literal_eval' depends on axioms: [propext, Classical.choice, Quot.sound] -/
#guard_msgs (whitespace := lax) in #print axioms Records.C18_literal_eval

/-- info: 'Records.C18_str_field' depends on axioms: [propext, Quot.sound] -/
#guard_msgs (whitespace := lax) in #print axioms Records.C18_str_field

/-- info: 'Records.C19_hollow' depends on axioms: [propext, Quot.sound] -/
#guard_msgs (whitespace := lax) in #print axioms Records.C19_hollow

/-- info: 'Records.C19_hollow_leaf' depends on axioms: [propext, Quot.sound] -/
#guard_msgs (whitespace := lax) in #print axioms Records.C19_hollow_leaf

/-- info: 'Records.C20_match' depends on axioms: [propext, Quot.sound] -/
#guard_msgs (whitespace := lax) in #print axioms Records.C20_match

/-- info: 'Records.C20_no_coercers' depends on axioms: [propext, Quot.sound] -/
#guard_msgs (whitespace := lax) in #print axioms Records.C20_no_coercers

/-- info: 'Records.C21_type_sound' depends on axioms: [propext, Quot.sound] -/
#guard_msgs (whitespace := lax) in #print axioms Records.C21_type_sound

/-- info: 'Records.C22_exact' depends on axioms: [propext, Classical.choice, Quot.sound] -/
#guard_msgs (whitespace := lax) in #print axioms Records.C22_exact

/-- info: 'Records.C22_no_coercers' depends on axioms: [propext, Classical.choice, Quot.sound] -/
#guard_msgs (whitespace := lax) in #print axioms Records.C22_no_coercers

/-- info: 'Records.C22_refuted' depends on axioms: [propext, Classical.choice, Quot.sound] -/
#guard_msgs (whitespace := lax) in #print axioms Records.C22_refuted

/-- info: 'Records.C23_first_success' depends on axioms: [propext, Quot.sound] -/
#guard_msgs (whitespace := lax) in #print axioms Records.C23_first_success

/-- info: 'Records.C23_last_failure' depends on axioms: [propext, Quot.sound] -/
#guard_msgs (whitespace := lax) in #print axioms Records.C23_last_failure

/-- info: 'Records.C24_argument' depends on axioms: [propext, Quot.sound] -/
#guard_msgs (whitespace := lax) in #print axioms Records.C24_argument

/-- info: 'Records.C24_refuted' depends on axioms: [propext, Classical.choice, Quot.sound] -/
#guard_msgs (whitespace := lax) in #print axioms Records.C24_refuted

/-- info: 'Records.C25_leaf' depends on axioms: [propext, Quot.sound] -/
#guard_msgs (whitespace := lax) in #print axioms Records.C25_leaf

/-- info: 'Records.C25_union' depends on axioms: [propext, Quot.sound] -/
#guard_msgs (whitespace := lax) in #print axioms Records.C25_union

/-- info: 'Records.C26_after_bind' depends on axioms: [propext, Quot.sound] -/
#guard_msgs (whitespace := lax) in #print axioms Records.C26_after_bind

/-- info: 'Records.C26_container' depends on axioms: [propext, Classical.choice, Quot.sound] -/
#guard_msgs (whitespace := lax) in #print axioms Records.C26_container

/-- info: 'Records.C26_container_exact' depends on axioms: [propext, Classical.choice, Quot.sound] -/
#guard_msgs (whitespace := lax) in #print axioms Records.C26_container_exact

/-- info: 'Records.C26_leaf' depends on axioms: [propext, Quot.sound] -/
#guard_msgs (whitespace := lax) in #print axioms Records.C26_leaf

/-- info: 'Records.C26_unchecked' depends on axioms: [propext, Quot.sound] -/
#guard_msgs (whitespace := lax) in #print axioms Records.C26_unchecked

/-- info: 'Records.C26_uninterpretable' depends on axioms: [propext, Quot.sound] -/
#guard_msgs (whitespace := lax) in #print axioms Records.C26_uninterpretable

/-- info: 'Records.C26_union_members' depends on axioms: [propext, Quot.sound] -/
#guard_msgs (whitespace := lax) in #print axioms Records.C26_union_members

/-- info: 'Records.C27_strict_refines_check' depends on axioms: [propext, Quot.sound] -/
#guard_msgs (whitespace := lax) in #print axioms Records.C27_strict_refines_check

/-- info: 'Records.C28_builtin_tokens' depends on axioms: [propext] -/
#guard_msgs (whitespace := lax) in #print axioms Records.C28_builtin_tokens

/-- info: 'Records.C28_construct' depends on axioms: [propext, Classical.choice, Quot.sound] -/
#guard_msgs (whitespace := lax) in #print axioms Records.C28_construct

/-- info: 'Records.C28_fill' depends on axioms: [propext, Quot.sound] -/
#guard_msgs (whitespace := lax) in #print axioms Records.C28_fill

/-- info: 'Records.C28_from_instance' depends on axioms: [propext, Classical.choice, Quot.sound] -/
#guard_msgs (whitespace := lax) in #print axioms Records.C28_from_instance

/-- info: 'Records.C28_from_json' depends on axioms: [propext, Classical.choice, Quot.sound] -/
#guard_msgs (whitespace := lax) in #print axioms Records.C28_from_json

/-- info: 'Records.C28_from_mapping' depends on axioms: [propext, Classical.choice, Quot.sound] -/
#guard_msgs (whitespace := lax) in #print axioms Records.C28_from_mapping

/-- info: 'Records.C28_parse' depends on axioms: [propext, Classical.choice, Quot.sound] -/
#guard_msgs (whitespace := lax) in #print axioms Records.C28_parse

/-- info: 'Records.C28_to_dict' depends on axioms: [propext, Classical.choice, Quot.sound] -/
#guard_msgs (whitespace := lax) in #print axioms Records.C28_to_dict

/-- info: 'Records.C29_attempt' depends on axioms: [propext, Classical.choice, Quot.sound] -/
#guard_msgs (whitespace := lax) in #print axioms Records.C29_attempt

/-- info: 'Records.C29_literal' depends on axioms: [propext, Quot.sound] -/
#guard_msgs (whitespace := lax) in #print axioms Records.C29_literal

/-- info: 'Records.C29_refuted_with_coercers' depends on axioms: [propext, Classical.choice, Quot.sound] -/
#guard_msgs (whitespace := lax) in #print axioms Records.C29_refuted_with_coercers

/-- info: 'Records.C29_sound' depends on axioms: [propext, Quot.sound] -/
#guard_msgs (whitespace := lax) in #print axioms Records.C29_sound

/-- info: 'Records.C30_best' depends on axioms: [propext, Classical.choice, Quot.sound] -/
#guard_msgs (whitespace := lax) in #print axioms Records.C30_best

/-- info: 'Records.C30_stored' depends on axioms: [propext, Classical.choice, Quot.sound] -/
#guard_msgs (whitespace := lax) in #print axioms Records.C30_stored

/-- info: 'Records.C31_order' depends on axioms: [propext, Classical.choice, Quot.sound] -/
#guard_msgs (whitespace := lax) in #print axioms Records.C31_order

/-- info: 'Records.C32_ambiguous' depends on axioms: [propext, Classical.choice, Quot.sound] -/
#guard_msgs (whitespace := lax) in #print axioms Records.C32_ambiguous

/-- info: 'Records.C33_exact' depends on axioms: [propext, Classical.choice, Quot.sound] -/
#guard_msgs (whitespace := lax) in #print axioms Records.C33_exact

/-- info: 'Records.C33_refuted' depends on axioms: [propext, Classical.choice, Quot.sound] -/
#guard_msgs (whitespace := lax) in #print axioms Records.C33_refuted

/-- info: 'Records.C33_validators' depends on axioms: [propext, Classical.choice, Quot.sound] -/
#guard_msgs (whitespace := lax) in #print axioms Records.C33_validators

/-- info: 'Records.C34_elements' depends on axioms: [propext, Classical.choice, Quot.sound] -/
#guard_msgs (whitespace := lax) in #print axioms Records.C34_elements

/-- info: 'Records.C34_total' does not depend on any axioms -/
#guard_msgs (whitespace := lax) in #print axioms Records.C34_total

/-- info: 'Records.C35_tuple' depends on axioms: [propext, Classical.choice, Quot.sound] -/
#guard_msgs (whitespace := lax) in #print axioms Records.C35_tuple

/-- info: 'Records.C36_mapping' depends on axioms: [propext, Classical.choice, Quot.sound] -/
#guard_msgs (whitespace := lax) in #print axioms Records.C36_mapping

/-- info: 'Records.C37_rebuild' depends on axioms: [propext, Classical.choice, Quot.sound] -/
#guard_msgs (whitespace := lax) in #print axioms Records.C37_rebuild

/-- info: 'Records.C38_conforms' depends on axioms: [propext, Classical.choice, Quot.sound] -/
#guard_msgs (whitespace := lax) in #print axioms Records.C38_conforms

/-- info: 'Records.C39_decides' depends on axioms: [propext, Classical.choice, Quot.sound] -/
#guard_msgs (whitespace := lax) in #print axioms Records.C39_decides

/-- info: 'Records.C40_checked' depends on axioms: [propext, Classical.choice, Quot.sound] -/
#guard_msgs (whitespace := lax) in #print axioms Records.C40_checked

/-- info: 'Records.C40_checked_mapping' depends on axioms: [propext, Classical.choice, Quot.sound] -/
#guard_msgs (whitespace := lax) in #print axioms Records.C40_checked_mapping

/-- info: 'Records.C40_hollow_parts' depends on axioms: [propext, Classical.choice, Quot.sound] -/
#guard_msgs (whitespace := lax) in #print axioms Records.C40_hollow_parts

/-- info: 'Records.C40_refuted' depends on axioms: [propext, Classical.choice, Quot.sound] -/
#guard_msgs (whitespace := lax) in #print axioms Records.C40_refuted

/-- info: 'Records.C41_exact' depends on axioms: [propext, Classical.choice, Quot.sound] -/
#guard_msgs (whitespace := lax) in #print axioms Records.C41_exact

/-- info: 'Records.C41_refuted' depends on axioms: [propext, Classical.choice, Quot.sound] -/
#guard_msgs (whitespace := lax) in #print axioms Records.C41_refuted

/-- info: 'Records.C42_accepts' depends on axioms: [propext, Quot.sound] -/
#guard_msgs (whitespace := lax) in #print axioms Records.C42_accepts

/-- info: 'Records.C42_aliases' depends on axioms: [propext] -/
#guard_msgs (whitespace := lax) in #print axioms Records.C42_aliases

/-- info: 'Records.C42_total' depends on axioms: [propext, Quot.sound] -/
#guard_msgs (whitespace := lax) in #print axioms Records.C42_total

/-- info: 'Records.C43_declaration_order' depends on axioms: [propext, Classical.choice, Quot.sound] -/
#guard_msgs (whitespace := lax) in #print axioms Records.C43_declaration_order

/-- info: 'Records.C43_field_order' depends on axioms: [propext, Quot.sound] -/
#guard_msgs (whitespace := lax) in #print axioms Records.C43_field_order

/-- info: 'Records.C43_partition' depends on axioms: [propext, Quot.sound] -/
#guard_msgs (whitespace := lax) in #print axioms Records.C43_partition

/-- info: 'Records.C43_program' depends on axioms: [propext, Classical.choice, Quot.sound] -/
#guard_msgs (whitespace := lax) in #print axioms Records.C43_program

/-- info: 'Records.C44_collision' depends on axioms: [propext, Quot.sound] -/
#guard_msgs (whitespace := lax) in #print axioms Records.C44_collision

/-- info: 'Records.C44_creatable_iff' depends on axioms: [propext, Quot.sound] -/
#guard_msgs (whitespace := lax) in #print axioms Records.C44_creatable_iff

/-- info: 'Records.C44_diamond' depends on axioms: [propext, Quot.sound] -/
#guard_msgs (whitespace := lax) in #print axioms Records.C44_diamond

/-- info: 'Records.C44_program_diamond' depends on axioms: [propext, Classical.choice, Quot.sound] -/
#guard_msgs (whitespace := lax) in #print axioms Records.C44_program_diamond

/-- info: 'Records.C44_value_error_iff' depends on axioms: [propext, Quot.sound] -/
#guard_msgs (whitespace := lax) in #print axioms Records.C44_value_error_iff

/-- info: 'Records.C45_inherited_field' depends on axioms: [propext, Quot.sound] -/
#guard_msgs (whitespace := lax) in #print axioms Records.C45_inherited_field

/-- info: 'Records.C45_options' depends on axioms: [propext, Quot.sound] -/
#guard_msgs (whitespace := lax) in #print axioms Records.C45_options

/-- info: 'Records.C45_own_field' depends on axioms: [propext, Quot.sound] -/
#guard_msgs (whitespace := lax) in #print axioms Records.C45_own_field

/-- info: 'Records.C46_unary_default' depends on axioms: [propext, Quot.sound] -/
#guard_msgs (whitespace := lax) in #print axioms Records.C46_unary_default

/-- info: 'Records.C47_filter_by_tag' depends on axioms: [propext, Quot.sound] -/
#guard_msgs (whitespace := lax) in #print axioms Records.C47_filter_by_tag

/-- info: 'Records.C47_refuted' depends on axioms: [propext, Classical.choice, Quot.sound] -/
#guard_msgs (whitespace := lax) in #print axioms Records.C47_refuted

/-- info: 'Records.C47_tags' depends on axioms: [propext, Quot.sound] -/
#guard_msgs (whitespace := lax) in #print axioms Records.C47_tags

/-- info: 'Records.C48_annotated_final' depends on axioms: [propext] -/
#guard_msgs (whitespace := lax) in #print axioms Records.C48_annotated_final

/-- info: 'Records.C48_final_is_plain' depends on axioms: [propext, Quot.sound] -/
#guard_msgs (whitespace := lax) in #print axioms Records.C48_final_is_plain

/-- info: 'Records.C48_final_needs_frozen' depends on axioms: [propext, Quot.sound] -/
#guard_msgs (whitespace := lax) in #print axioms Records.C48_final_needs_frozen

/-- info: 'Records.C48_refuted' depends on axioms: [propext, Classical.choice, Quot.sound] -/
#guard_msgs (whitespace := lax) in #print axioms Records.C48_refuted

/-- info: 'Records.C49_construction_refines' depends on axioms: [propext, Classical.choice, Quot.sound] -/
#guard_msgs (whitespace := lax) in #print axioms Records.C49_construction_refines

/-- info: 'Records.C49_keyword_construction' depends on axioms: [propext, Classical.choice, Quot.sound] -/
#guard_msgs (whitespace := lax) in #print axioms Records.C49_keyword_construction

/-- info: 'Records.C50_unknown_keyword' depends on axioms: [propext, Classical.choice, Quot.sound] -/
#guard_msgs (whitespace := lax) in #print axioms Records.C50_unknown_keyword

/-- info: 'Records.C51_missing_required' depends on axioms: [propext, Classical.choice, Quot.sound] -/
#guard_msgs (whitespace := lax) in #print axioms Records.C51_missing_required

/-- info: 'Records.C52_default_verbatim' depends on axioms: [propext, Classical.choice, Quot.sound] -/
#guard_msgs (whitespace := lax) in #print axioms Records.C52_default_verbatim

/-- info: 'Records.C52_filler_not_used' depends on axioms: [propext, Quot.sound] -/
#guard_msgs (whitespace := lax) in #print axioms Records.C52_filler_not_used

/-- info: 'Records.C53_order_irrelevant' depends on axioms: [propext, Classical.choice, Quot.sound] -/
#guard_msgs (whitespace := lax) in #print axioms Records.C53_order_irrelevant

/-- info: 'Records.C53_success_iff' depends on axioms: [propext, Classical.choice, Quot.sound] -/
#guard_msgs (whitespace := lax) in #print axioms Records.C53_success_iff

/-- info: 'Records.C54_factory_at_most_once' depends on axioms: [propext, Classical.choice, Quot.sound] -/
#guard_msgs (whitespace := lax) in #print axioms Records.C54_factory_at_most_once

/-- info: 'Records.C54_factory_once' depends on axioms: [propext, Classical.choice, Quot.sound] -/
#guard_msgs (whitespace := lax) in #print axioms Records.C54_factory_once

/-- info: 'Records.C55_ambiguous' depends on axioms: [propext, Classical.choice, Quot.sound] -/
#guard_msgs (whitespace := lax) in #print axioms Records.C55_ambiguous

/-- info: 'Records.C55_not_parsed' depends on axioms: [propext, Quot.sound] -/
#guard_msgs (whitespace := lax) in #print axioms Records.C55_not_parsed

/-- info: 'Records.C55_parsed_field' depends on axioms: [propext] -/
#guard_msgs (whitespace := lax) in #print axioms Records.C55_parsed_field

/-- info: 'Records.C55_parsed_no_field' depends on axioms: [propext] -/
#guard_msgs (whitespace := lax) in #print axioms Records.C55_parsed_no_field

/-- info: 'Records.C55_standby' depends on axioms: [propext, Classical.choice, Quot.sound] -/
#guard_msgs (whitespace := lax) in #print axioms Records.C55_standby

/-- info: 'Records.C56_factory_failure' depends on axioms: [propext, Classical.choice, Quot.sound] -/
#guard_msgs (whitespace := lax) in #print axioms Records.C56_factory_failure

/-- info: 'Records.C56_fill_failure' depends on axioms: [propext, Classical.choice, Quot.sound] -/
#guard_msgs (whitespace := lax) in #print axioms Records.C56_fill_failure

/-- info: 'Records.C56_post_failure' depends on axioms: [propext, Classical.choice, Quot.sound] -/
#guard_msgs (whitespace := lax) in #print axioms Records.C56_post_failure

/-- info: 'Records.C56_refuted' depends on axioms: [propext, Classical.choice, Quot.sound] -/
#guard_msgs (whitespace := lax) in #print axioms Records.C56_refuted

/-- info: 'Records.C57_cases' depends on axioms: [propext] -/
#guard_msgs (whitespace := lax) in #print axioms Records.C57_cases

/-- info: 'Records.C57_interrupted' depends on axioms: [propext, Classical.choice, Quot.sound] -/
#guard_msgs (whitespace := lax) in #print axioms Records.C57_interrupted

/-- info: 'Records.C57_json_parser' depends on axioms: [propext, Classical.choice, Quot.sound] -/
#guard_msgs (whitespace := lax) in #print axioms Records.C57_json_parser

/-- info: 'Records.C57_mapping_parser' depends on axioms: [propext, Classical.choice, Quot.sound] -/
#guard_msgs (whitespace := lax) in #print axioms Records.C57_mapping_parser

/-- info: 'Records.C57_parse' depends on axioms: [propext, Classical.choice, Quot.sound] -/
#guard_msgs (whitespace := lax) in #print axioms Records.C57_parse

/-- info: 'Records.C58_interrupted' depends on axioms: [propext, Classical.choice, Quot.sound] -/
#guard_msgs (whitespace := lax) in #print axioms Records.C58_interrupted

/-- info: 'Records.C58_parser_order' depends on axioms: [propext, Classical.choice, Quot.sound] -/
#guard_msgs (whitespace := lax) in #print axioms Records.C58_parser_order

/-- info: 'Records.C58_whole_class' depends on axioms: [propext, Classical.choice, Quot.sound] -/
#guard_msgs (whitespace := lax) in #print axioms Records.C58_whole_class

/-- info: 'Records.C59_ambiguous' depends on axioms: [propext, Classical.choice, Quot.sound] -/
#guard_msgs (whitespace := lax) in #print axioms Records.C59_ambiguous

/-- info: 'Records.C59_from_instance' depends on axioms: [propext, Classical.choice, Quot.sound] -/
#guard_msgs (whitespace := lax) in #print axioms Records.C59_from_instance

/-- info: 'Records.C59_refuted' depends on axioms: [propext, Classical.choice, Quot.sound] -/
#guard_msgs (whitespace := lax) in #print axioms Records.C59_refuted

/-- info: 'Records.C59_required' depends on axioms: [propext, Classical.choice, Quot.sound] -/
#guard_msgs (whitespace := lax) in #print axioms Records.C59_required

/-- info: 'Records.C60_fill_error' depends on axioms: [propext, Classical.choice, Quot.sound] -/
#guard_msgs (whitespace := lax) in #print axioms Records.C60_fill_error

/-- info: 'Records.C61_arg_cls' depends on axioms: [propext, Quot.sound] -/
#guard_msgs (whitespace := lax) in #print axioms Records.C61_arg_cls

/-- info: 'Records.C61_passed_through' depends on axioms: [propext, Quot.sound] -/
#guard_msgs (whitespace := lax) in #print axioms Records.C61_passed_through

/-- info: 'Records.C61_self' depends on axioms: [propext] -/
#guard_msgs (whitespace := lax) in #print axioms Records.C61_self

/-- info: 'Records.C62_post_new_decides' depends on axioms: [propext, Classical.choice, Quot.sound] -/
#guard_msgs (whitespace := lax) in #print axioms Records.C62_post_new_decides

/-- info: 'Records.C62_post_new_once' depends on axioms: [propext, Classical.choice, Quot.sound] -/
#guard_msgs (whitespace := lax) in #print axioms Records.C62_post_new_once

/-- info: 'Records.C62_post_new_raises' depends on axioms: [propext, Classical.choice, Quot.sound] -/
#guard_msgs (whitespace := lax) in #print axioms Records.C62_post_new_raises

/-- info: 'Records.C63_clash' depends on axioms: [propext, Quot.sound] -/
#guard_msgs (whitespace := lax) in #print axioms Records.C63_clash

/-- info: 'Records.C63_from_mapping' depends on axioms: [propext, Quot.sound] -/
#guard_msgs (whitespace := lax) in #print axioms Records.C63_from_mapping

/-- info: 'Records.C63_select' depends on axioms: [propext, Quot.sound] -/
#guard_msgs (whitespace := lax) in #print axioms Records.C63_select

/-- info: 'Records.C64_clash' depends on axioms: [propext, Classical.choice, Quot.sound] -/
#guard_msgs (whitespace := lax) in #print axioms Records.C64_clash

/-- info: 'Records.C64_missing' depends on axioms: [propext, Classical.choice, Quot.sound] -/
#guard_msgs (whitespace := lax) in #print axioms Records.C64_missing

/-- info: 'Records.C64_precedence' depends on axioms: [propext, Classical.choice, Quot.sound] -/
#guard_msgs (whitespace := lax) in #print axioms Records.C64_precedence

/-- info: 'Records.C64_two_mappings' depends on axioms: [propext, Classical.choice, Quot.sound] -/
#guard_msgs (whitespace := lax) in #print axioms Records.C64_two_mappings

/-- info: 'Records.C65_constructs' depends on axioms: [propext, Classical.choice, Quot.sound] -/
#guard_msgs (whitespace := lax) in #print axioms Records.C65_constructs

/-- info: 'Records.C65_same_object' depends on axioms: [propext, Classical.choice, Quot.sound] -/
#guard_msgs (whitespace := lax) in #print axioms Records.C65_same_object

/-- info: 'Records.C66_like_mapping' depends on axioms: [propext, Classical.choice, Quot.sound] -/
#guard_msgs (whitespace := lax) in #print axioms Records.C66_like_mapping

/-- info: 'Records.C66_refuted' depends on axioms: [propext, Classical.choice, Quot.sound] -/
#guard_msgs (whitespace := lax) in #print axioms Records.C66_refuted

/-- info: 'Records.C66_refuted_maybe_add' depends on axioms: [propext, Classical.choice, Quot.sound] -/
#guard_msgs (whitespace := lax) in #print axioms Records.C66_refuted_maybe_add

/-- info: 'Records.C66_select' depends on axioms: [propext, Classical.choice, Quot.sound] -/
#guard_msgs (whitespace := lax) in #print axioms Records.C66_select

/-- info: 'Records.C67_eq_iff' depends on axioms: [propext, Classical.choice, Quot.sound] -/
#guard_msgs (whitespace := lax) in #print axioms Records.C67_eq_iff

/-- info: 'Records.C67_other_class' depends on axioms: [propext, Classical.choice, Quot.sound] -/
#guard_msgs (whitespace := lax) in #print axioms Records.C67_other_class

/-- info: 'Records.C67_refl' depends on axioms: [propext, Classical.choice, Quot.sound] -/
#guard_msgs (whitespace := lax) in #print axioms Records.C67_refl

/-- info: 'Records.C67_symm' depends on axioms: [propext, Classical.choice, Quot.sound] -/
#guard_msgs (whitespace := lax) in #print axioms Records.C67_symm

/-- info: 'Records.C67_trans' depends on axioms: [propext, Classical.choice, Quot.sound] -/
#guard_msgs (whitespace := lax) in #print axioms Records.C67_trans

/-- info: 'Records.C68_equal_hash' depends on axioms: [propext, Classical.choice, Quot.sound] -/
#guard_msgs (whitespace := lax) in #print axioms Records.C68_equal_hash

/-- info: 'Records.C68_hash' depends on axioms: [propext, Classical.choice, Quot.sound] -/
#guard_msgs (whitespace := lax) in #print axioms Records.C68_hash

/-- info: 'Records.C69_hash_twice' depends on axioms: [propext, Classical.choice, Quot.sound] -/
#guard_msgs (whitespace := lax) in #print axioms Records.C69_hash_twice

/-- info: 'Records.C69_stable_hash' depends on axioms: [propext, Classical.choice, Quot.sound] -/
#guard_msgs (whitespace := lax) in #print axioms Records.C69_stable_hash

/-- info: 'Records.C70_absent' depends on axioms: [propext] -/
#guard_msgs (whitespace := lax) in #print axioms Records.C70_absent

/-- info: 'Records.C70_assignment' does not depend on any axioms -/
#guard_msgs (whitespace := lax) in #print axioms Records.C70_assignment

/-- info: 'Records.C70_deletion' depends on axioms: [propext, Quot.sound] -/
#guard_msgs (whitespace := lax) in #print axioms Records.C70_deletion

/-- info: 'Records.C70_history' depends on axioms: [propext, Classical.choice, Quot.sound] -/
#guard_msgs (whitespace := lax) in #print axioms Records.C70_history

/-- info: 'Records.C70_not_frozen' depends on axioms: [propext] -/
#guard_msgs (whitespace := lax) in #print axioms Records.C70_not_frozen

/-- info: 'Records.C70_refuted' depends on axioms: [propext, Classical.choice, Quot.sound] -/
#guard_msgs (whitespace := lax) in #print axioms Records.C70_refuted

/-- info: 'Records.C71_incomparable' depends on axioms: [propext, Classical.choice, Quot.sound] -/
#guard_msgs (whitespace := lax) in #print axioms Records.C71_incomparable

/-- info: 'Records.C71_incomparable_right' depends on axioms: [propext, Classical.choice, Quot.sound] -/
#guard_msgs (whitespace := lax) in #print axioms Records.C71_incomparable_right

/-- info: 'Records.C71_not_frozen' depends on axioms: [propext, Classical.choice, Quot.sound] -/
#guard_msgs (whitespace := lax) in #print axioms Records.C71_not_frozen

/-- info: 'Records.C71_refuted' depends on axioms: [propext, Classical.choice, Quot.sound] -/
#guard_msgs (whitespace := lax) in #print axioms Records.C71_refuted

/-- info: 'Records.C71_unhashable' depends on axioms: [propext, Classical.choice, Quot.sound] -/
#guard_msgs (whitespace := lax) in #print axioms Records.C71_unhashable

/-- info: 'Records.C71_unhashable_value' depends on axioms: [propext, Classical.choice, Quot.sound] -/
#guard_msgs (whitespace := lax) in #print axioms Records.C71_unhashable_value

/-- info: 'Records.C72_consistent' depends on axioms: [propext, Classical.choice, Quot.sound] -/
#guard_msgs (whitespace := lax) in #print axioms Records.C72_consistent

/-- info: 'Records.C72_lexicographic' depends on axioms: [propext, Classical.choice, Quot.sound] -/
#guard_msgs (whitespace := lax) in #print axioms Records.C72_lexicographic

/-- info: 'Records.C72_total' depends on axioms: [propext, Classical.choice, Quot.sound] -/
#guard_msgs (whitespace := lax) in #print axioms Records.C72_total

/-- info: 'Records.C72_trans' depends on axioms: [propext, Classical.choice, Quot.sound] -/
#guard_msgs (whitespace := lax) in #print axioms Records.C72_trans

/-- info: 'Records.C73_agrees_with_eq' depends on axioms: [propext, Classical.choice, Quot.sound] -/
#guard_msgs (whitespace := lax) in #print axioms Records.C73_agrees_with_eq

/-- info: 'Records.C73_equal_not_less' depends on axioms: [propext, Classical.choice, Quot.sound] -/
#guard_msgs (whitespace := lax) in #print axioms Records.C73_equal_not_less

/-- info: 'Records.C73_mutual_le' depends on axioms: [propext, Classical.choice, Quot.sound] -/
#guard_msgs (whitespace := lax) in #print axioms Records.C73_mutual_le

/-- info: 'Records.C73_refuted' depends on axioms: [propext, Classical.choice, Quot.sound] -/
#guard_msgs (whitespace := lax) in #print axioms Records.C73_refuted

/-- info: 'Records.C74_reflected' depends on axioms: [propext, Quot.sound] -/
#guard_msgs (whitespace := lax) in #print axioms Records.C74_reflected

/-- info: 'Records.C74_reflected_same' depends on axioms: [propext, Quot.sound] -/
#guard_msgs (whitespace := lax) in #print axioms Records.C74_reflected_same

/-- info: 'Records.C74_subclass' depends on axioms: [propext, Quot.sound] -/
#guard_msgs (whitespace := lax) in #print axioms Records.C74_subclass

/-- info: 'Records.C74_unordered' depends on axioms: [propext, Quot.sound] -/
#guard_msgs (whitespace := lax) in #print axioms Records.C74_unordered

/-- info: 'Records.C74_unrelated' depends on axioms: [propext, Quot.sound] -/
#guard_msgs (whitespace := lax) in #print axioms Records.C74_unrelated

/-- info: 'Records.C75_attribute_error' depends on axioms: [propext, Classical.choice, Quot.sound] -/
#guard_msgs (whitespace := lax) in #print axioms Records.C75_attribute_error

/-- info: 'Records.C75_blacklist_container' depends on axioms: [propext, Classical.choice, Quot.sound] -/
#guard_msgs (whitespace := lax) in #print axioms Records.C75_blacklist_container

/-- info: 'Records.C75_to_dict' depends on axioms: [propext, Classical.choice, Quot.sound] -/
#guard_msgs (whitespace := lax) in #print axioms Records.C75_to_dict

/-- info: 'Records.C76_ascending' depends on axioms: [propext, Classical.choice, Quot.sound] -/
#guard_msgs (whitespace := lax) in #print axioms Records.C76_ascending

/-- info: 'Records.C76_descending' depends on axioms: [propext, Classical.choice, Quot.sound] -/
#guard_msgs (whitespace := lax) in #print axioms Records.C76_descending

/-- info: 'Records.C76_key' depends on axioms: [propext, Classical.choice, Quot.sound] -/
#guard_msgs (whitespace := lax) in #print axioms Records.C76_key

/-- info: 'Records.C76_sort_permutes' depends on axioms: [propext, Classical.choice, Quot.sound] -/
#guard_msgs (whitespace := lax) in #print axioms Records.C76_sort_permutes

/-- info: 'Records.C77_constructed' depends on axioms: [propext, Classical.choice, Quot.sound] -/
#guard_msgs (whitespace := lax) in #print axioms Records.C77_constructed

/-- info: 'Records.C77_refuted_names' depends on axioms: [propext, Classical.choice, Quot.sound] -/
#guard_msgs (whitespace := lax) in #print axioms Records.C77_refuted_names

/-- info: 'Records.C77_round_trip' depends on axioms: [propext, Classical.choice, Quot.sound] -/
#guard_msgs (whitespace := lax) in #print axioms Records.C77_round_trip

/-- info: 'Records.C78_json_round_trip' depends on axioms: [propext, Classical.choice, Quot.sound] -/
#guard_msgs (whitespace := lax) in #print axioms Records.C78_json_round_trip

/-- info: 'Records.C79_frozen' depends on axioms: [propext, Classical.choice, Quot.sound] -/
#guard_msgs (whitespace := lax) in #print axioms Records.C79_frozen

/-- info: 'Records.C79_not_frozen' depends on axioms: [propext, Classical.choice, Quot.sound] -/
#guard_msgs (whitespace := lax) in #print axioms Records.C79_not_frozen

/-- info: 'Records.C80_deepcopy' depends on axioms: [propext, Classical.choice, Quot.sound] -/
#guard_msgs (whitespace := lax) in #print axioms Records.C80_deepcopy

/-- info: 'Records.C81_attributes' depends on axioms: [propext, Classical.choice, Quot.sound] -/
#guard_msgs (whitespace := lax) in #print axioms Records.C81_attributes

/-- info: 'Records.C81_exact' depends on axioms: [propext, Classical.choice, Quot.sound] -/
#guard_msgs (whitespace := lax) in #print axioms Records.C81_exact

/-- info: 'Records.C81_fails' depends on axioms: [propext, Classical.choice, Quot.sound] -/
#guard_msgs (whitespace := lax) in #print axioms Records.C81_fails

/-- info: 'Records.C81_succeeds' depends on axioms: [propext, Classical.choice, Quot.sound] -/
#guard_msgs (whitespace := lax) in #print axioms Records.C81_succeeds

/-- info: 'Records.C82_cached' depends on axioms: [propext, Classical.choice, Quot.sound] -/
#guard_msgs (whitespace := lax) in #print axioms Records.C82_cached

/-- info: 'Records.C82_refuted' depends on axioms: [propext, Classical.choice, Quot.sound] -/
#guard_msgs (whitespace := lax) in #print axioms Records.C82_refuted

/-- info: 'Records.C82_uncached' depends on axioms: [propext, Classical.choice, Quot.sound] -/
#guard_msgs (whitespace := lax) in #print axioms Records.C82_uncached

/-- info: 'Records.C83_repr' depends on axioms: [propext, Classical.choice, Quot.sound] -/
#guard_msgs (whitespace := lax) in #print axioms Records.C83_repr

/-- info: 'Records.C83_repr_options' depends on axioms: [propext, Classical.choice, Quot.sound] -/
#guard_msgs (whitespace := lax) in #print axioms Records.C83_repr_options

/-- info: 'Records.C84_call' depends on axioms: [propext, Classical.choice, Quot.sound] -/
#guard_msgs (whitespace := lax) in #print axioms Records.C84_call

/-- info: 'Records.C84_call_args' depends on axioms: [propext, Classical.choice, Quot.sound] -/
#guard_msgs (whitespace := lax) in #print axioms Records.C84_call_args

/-- info: 'Records.C84_factory_call' depends on axioms: [propext, Classical.choice, Quot.sound] -/
#guard_msgs (whitespace := lax) in #print axioms Records.C84_factory_call

/-- info: 'Records.C84_factory_immutable' depends on axioms: [propext, Classical.choice, Quot.sound] -/
#guard_msgs (whitespace := lax) in #print axioms Records.C84_factory_immutable

/-- info: 'Records.C84_immutable' depends on axioms: [propext, Classical.choice, Quot.sound] -/
#guard_msgs (whitespace := lax) in #print axioms Records.C84_immutable

/-- info: 'Records.C84_last_keyword_wins' depends on axioms: [propext, Classical.choice, Quot.sound] -/
#guard_msgs (whitespace := lax) in #print axioms Records.C84_last_keyword_wins

/-- info: 'Records.C84_refuted' depends on axioms: [propext, Classical.choice, Quot.sound] -/
#guard_msgs (whitespace := lax) in #print axioms Records.C84_refuted

/-- info: 'Records.C84_refuted_iterators' depends on axioms: [propext, Classical.choice, Quot.sound] -/
#guard_msgs (whitespace := lax) in #print axioms Records.C84_refuted_iterators

/-- info: 'Records.C85_calls' depends on axioms: [propext, Classical.choice, Quot.sound] -/
#guard_msgs (whitespace := lax) in #print axioms Records.C85_calls

/-- info: 'Records.C85_int_result' depends on axioms: [propext, Classical.choice, Quot.sound] -/
#guard_msgs (whitespace := lax) in #print axioms Records.C85_int_result

/-- info: 'Records.C85_refuted_rounding' depends on axioms: [propext, Classical.choice, Quot.sound] -/
#guard_msgs (whitespace := lax) in #print axioms Records.C85_refuted_rounding

/-- info: 'Records.C85_whole_float' depends on axioms: [propext, Classical.choice, Quot.sound] -/
#guard_msgs (whitespace := lax) in #print axioms Records.C85_whole_float

/-- info: 'Records.C85_whole_float_exact' depends on axioms: [propext, Classical.choice, Quot.sound] -/
#guard_msgs (whitespace := lax) in #print axioms Records.C85_whole_float_exact

/-- info: 'Records.C86_eval' depends on axioms: [propext] -/
#guard_msgs (whitespace := lax) in #print axioms Records.C86_eval

/-- info: 'Records.C86_namespace' depends on axioms: [propext, Quot.sound] -/
#guard_msgs (whitespace := lax) in #print axioms Records.C86_namespace

/-- info: 'Records.C87_error' depends on axioms: [propext, Quot.sound] -/
#guard_msgs (whitespace := lax) in #print axioms Records.C87_error

/-- info: 'Records.C87_inherited_pre_bind' depends on axioms: [propext, Quot.sound] -/
#guard_msgs (whitespace := lax) in #print axioms Records.C87_inherited_pre_bind

/-- info: 'Records.C87_no_subclass' depends on axioms: [propext, Quot.sound] -/
#guard_msgs (whitespace := lax) in #print axioms Records.C87_no_subclass

/-- info: 'Records.C87_program' depends on axioms: [propext, Classical.choice, Quot.sound] -/
#guard_msgs (whitespace := lax) in #print axioms Records.C87_program

/-- info: 'Records.C88_program' depends on axioms: [propext, Classical.choice, Quot.sound] -/
#guard_msgs (whitespace := lax) in #print axioms Records.C88_program

/-- info: 'Records.C88_refuted' depends on axioms: [propext, Classical.choice, Quot.sound] -/
#guard_msgs (whitespace := lax) in #print axioms Records.C88_refuted

/-- info: 'Records.C88_required_iff' depends on axioms: [propext, Quot.sound] -/
#guard_msgs (whitespace := lax) in #print axioms Records.C88_required_iff

/-- info: 'Records.C89_refuted' depends on axioms: [propext, Classical.choice, Quot.sound] -/
#guard_msgs (whitespace := lax) in #print axioms Records.C89_refuted

/-- info: 'Records.C89_select_sees_export' depends on axioms: [propext, Classical.choice, Quot.sound] -/
#guard_msgs (whitespace := lax) in #print axioms Records.C89_select_sees_export

/-- info: 'Records.C90_conforming_kept' depends on axioms: [propext, Classical.choice, Quot.sound] -/
#guard_msgs (whitespace := lax) in #print axioms Records.C90_conforming_kept

/-- info: 'Records.C90_idempotent' depends on axioms: [propext, Classical.choice, Quot.sound] -/
#guard_msgs (whitespace := lax) in #print axioms Records.C90_idempotent

/-- info: 'Records.C90_refuted_union' depends on axioms: [propext, Classical.choice, Quot.sound] -/
#guard_msgs (whitespace := lax) in #print axioms Records.C90_refuted_union

/-- info: 'Records.C91_copy' depends on axioms: [propext, Classical.choice, Quot.sound] -/
#guard_msgs (whitespace := lax) in #print axioms Records.C91_copy

/-- info: 'Records.C91_history' depends on axioms: [propext, Classical.choice, Quot.sound] -/
#guard_msgs (whitespace := lax) in #print axioms Records.C91_history

/-- info: 'Records.C91_invariant' depends on axioms: [propext, Classical.choice, Quot.sound] -/
#guard_msgs (whitespace := lax) in #print axioms Records.C91_invariant

/-- info: 'Records.C91_refuted_default' depends on axioms: [propext, Classical.choice, Quot.sound] -/
#guard_msgs (whitespace := lax) in #print axioms Records.C91_refuted_default

/-- info: 'Records.C91_round_trip' depends on axioms: [propext, Classical.choice, Quot.sound] -/
#guard_msgs (whitespace := lax) in #print axioms Records.C91_round_trip

/-- info: 'Records.C91_types' depends on axioms: [propext, Classical.choice, Quot.sound] -/
#guard_msgs (whitespace := lax) in #print axioms Records.C91_types

/-- info: 'Records.C91_unpickled' depends on axioms: [propext, Classical.choice, Quot.sound] -/
#guard_msgs (whitespace := lax) in #print axioms Records.C91_unpickled

/-- info: 'Records.C92_class_is_instance' depends on axioms: [propext, Quot.sound] -/
#guard_msgs (whitespace := lax) in #print axioms Records.C92_class_is_instance

/-- info: 'Records.C92_ignored' depends on axioms: [propext, Quot.sound] -/
#guard_msgs (whitespace := lax) in #print axioms Records.C92_ignored

/-- info: 'Records.C92_interchangeable' depends on axioms: [propext, Quot.sound] -/
#guard_msgs (whitespace := lax) in #print axioms Records.C92_interchangeable

/-- info: 'Records.C92_meaning' depends on axioms: [propext, Quot.sound] -/
#guard_msgs (whitespace := lax) in #print axioms Records.C92_meaning

/-- info: 'Records.C92_raises' depends on axioms: [propext] -/
#guard_msgs (whitespace := lax) in #print axioms Records.C92_raises

/-- info: 'Records.C92_refuted' depends on axioms: [propext, Classical.choice, Quot.sound] -/
#guard_msgs (whitespace := lax) in #print axioms Records.C92_refuted

/-- info: 'Records.C92_wrapped' depends on axioms: [propext, Quot.sound] -/
#guard_msgs (whitespace := lax) in #print axioms Records.C92_wrapped

/-- info: 'Records.C93_adds' depends on axioms: [propext, Quot.sound] -/
#guard_msgs (whitespace := lax) in #print axioms Records.C93_adds

/-- info: 'Records.C93_decorator' depends on axioms: [propext] -/
#guard_msgs (whitespace := lax) in #print axioms Records.C93_decorator

/-- info: 'Records.C93_equivalent' depends on axioms: [propext, Quot.sound] -/
#guard_msgs (whitespace := lax) in #print axioms Records.C93_equivalent

/-- info: 'Records.C93_refuses' depends on axioms: [propext, Quot.sound] -/
#guard_msgs (whitespace := lax) in #print axioms Records.C93_refuses

/-- info: 'Records.C93_runs' depends on axioms: [propext, Quot.sound] -/
#guard_msgs (whitespace := lax) in #print axioms Records.C93_runs

/-- info: 'Records.C94_declared' depends on axioms: [propext, Quot.sound] -/
#guard_msgs (whitespace := lax) in #print axioms Records.C94_declared

/-- info: 'Records.C94_declared_map' depends on axioms: [propext, Classical.choice, Quot.sound] -/
#guard_msgs (whitespace := lax) in #print axioms Records.C94_declared_map

/-- info: 'Records.C94_declared_unpack' depends on axioms: [propext, Quot.sound] -/
#guard_msgs (whitespace := lax) in #print axioms Records.C94_declared_unpack

/-- info: 'Records.C94_degenerate' depends on axioms: [propext] -/
#guard_msgs (whitespace := lax) in #print axioms Records.C94_degenerate

/-- info: 'Records.C94_loose' depends on axioms: [propext, Quot.sound] -/
#guard_msgs (whitespace := lax) in #print axioms Records.C94_loose

/-- info: 'Records.C94_refuted' depends on axioms: [propext, Classical.choice, Quot.sound] -/
#guard_msgs (whitespace := lax) in #print axioms Records.C94_refuted

/-- info: 'Records.C94_unpack' depends on axioms: [propext, Classical.choice, Quot.sound] -/
#guard_msgs (whitespace := lax) in #print axioms Records.C94_unpack

/-- info: 'Records.C94_unpack_map' depends on axioms: [propext, Classical.choice, Quot.sound] -/
#guard_msgs (whitespace := lax) in #print axioms Records.C94_unpack_map

/-- info: 'Records.C95_exception' depends on axioms: [propext, Quot.sound] -/
#guard_msgs (whitespace := lax) in #print axioms Records.C95_exception

/-- info: 'Records.C95_literal' depends on axioms: [propext] -/
#guard_msgs (whitespace := lax) in #print axioms Records.C95_literal

/-- info: 'Records.C95_refused' depends on axioms: [propext, Quot.sound] -/
#guard_msgs (whitespace := lax) in #print axioms Records.C95_refused

/-- info: 'Records.C96_bind' depends on axioms: [propext] -/
#guard_msgs (whitespace := lax) in #print axioms Records.C96_bind

/-- info: 'Records.C96_isolated' depends on axioms: [propext, Quot.sound] -/
#guard_msgs (whitespace := lax) in #print axioms Records.C96_isolated

/-- info: 'Records.C96_names' depends on axioms: [propext] -/
#guard_msgs (whitespace := lax) in #print axioms Records.C96_names

/-- info: 'Records.C96_pure' depends on axioms: [propext, Quot.sound] -/
#guard_msgs (whitespace := lax) in #print axioms Records.C96_pure

/-- info: 'Records.C96_refuted' depends on axioms: [propext, Classical.choice, Quot.sound] -/
#guard_msgs (whitespace := lax) in #print axioms Records.C96_refuted

/-- info: 'Records.C96_unnamed' depends on axioms: [propext] -/
#guard_msgs (whitespace := lax) in #print axioms Records.C96_unnamed

/-- info: 'Records.C97_alias' depends on axioms: [propext, Classical.choice, Quot.sound] -/
#guard_msgs (whitespace := lax) in #print axioms Records.C97_alias

/-- info: 'Records.C97_bases' depends on axioms: [propext, Classical.choice, Quot.sound] -/
#guard_msgs (whitespace := lax) in #print axioms Records.C97_bases

/-- info: 'Records.C97_field_shadows' depends on axioms: [propext, Classical.choice, Quot.sound] -/
#guard_msgs (whitespace := lax) in #print axioms Records.C97_field_shadows

/-- info: 'Records.C97_from' depends on axioms: [propext, Classical.choice, Quot.sound] -/
#guard_msgs (whitespace := lax) in #print axioms Records.C97_from

/-- info: 'Records.C97_hooks' depends on axioms: [propext, Classical.choice, Quot.sound] -/
#guard_msgs (whitespace := lax) in #print axioms Records.C97_hooks

/-- info: 'Records.C97_inherited' depends on axioms: [propext, Classical.choice, Quot.sound] -/
#guard_msgs (whitespace := lax) in #print axioms Records.C97_inherited

/-- info: 'Records.C97_mro' depends on axioms: [propext, Classical.choice, Quot.sound] -/
#guard_msgs (whitespace := lax) in #print axioms Records.C97_mro

/-- info: 'Records.C97_parsers' depends on axioms: [propext, Classical.choice, Quot.sound] -/
#guard_msgs (whitespace := lax) in #print axioms Records.C97_parsers

/-- info: 'Records.Toy.Prog.C97_refuted' depends on axioms: [propext, Classical.choice, Quot.sound] -/
#guard_msgs (whitespace := lax) in #print axioms Records.Toy.Prog.C97_refuted

/-- info: 'Records.C98_declared' depends on axioms: [propext, Classical.choice, Quot.sound] -/
#guard_msgs (whitespace := lax) in #print axioms Records.C98_declared

/-- info: 'Records.C98_inherited' depends on axioms: [propext, Classical.choice, Quot.sound] -/
#guard_msgs (whitespace := lax) in #print axioms Records.C98_inherited

/-- info: 'Records.Toy.Prog.C98_refuted' depends on axioms: [propext, Classical.choice, Quot.sound] -/
#guard_msgs (whitespace := lax) in #print axioms Records.Toy.Prog.C98_refuted

/-- info: 'Records.C99_bad_key' depends on axioms: [propext, Classical.choice, Quot.sound] -/
#guard_msgs (whitespace := lax) in #print axioms Records.C99_bad_key

/-- info: 'Records.C99_container' depends on axioms: [propext, Classical.choice, Quot.sound] -/
#guard_msgs (whitespace := lax) in #print axioms Records.C99_container

/-- info: 'Records.C99_field' depends on axioms: [propext, Classical.choice, Quot.sound] -/
#guard_msgs (whitespace := lax) in #print axioms Records.C99_field

/-- info: 'Records.C99_keys' depends on axioms: [propext, Classical.choice, Quot.sound] -/
#guard_msgs (whitespace := lax) in #print axioms Records.C99_keys

/-- info: 'Records.C99_union' depends on axioms: [propext, Classical.choice, Quot.sound] -/
#guard_msgs (whitespace := lax) in #print axioms Records.C99_union

/-- info: 'Records.C100_keywords' depends on axioms: [propext, Classical.choice, Quot.sound] -/
#guard_msgs (whitespace := lax) in #print axioms Records.C100_keywords

/-- info: 'Records.C100_no_parse' depends on axioms: [propext, Classical.choice, Quot.sound] -/
#guard_msgs (whitespace := lax) in #print axioms Records.C100_no_parse

/-- info: 'Records.C100_parse' depends on axioms: [propext, Classical.choice, Quot.sound] -/
#guard_msgs (whitespace := lax) in #print axioms Records.C100_parse

/-- info: 'Records.C100_positional' depends on axioms: [propext, Classical.choice, Quot.sound] -/
#guard_msgs (whitespace := lax) in #print axioms Records.C100_positional

/-- info: 'Records.C100_refuted' depends on axioms: [propext, Classical.choice, Quot.sound] -/
#guard_msgs (whitespace := lax) in #print axioms Records.C100_refuted

/-- info: 'Records.C101_blacklist' depends on axioms: [propext, Quot.sound] -/
#guard_msgs (whitespace := lax) in #print axioms Records.C101_blacklist

/-- info: 'Records.C101_blacklist_numbers' depends on axioms: [propext, Quot.sound] -/
#guard_msgs (whitespace := lax) in #print axioms Records.C101_blacklist_numbers

/-- info: 'Records.C101_carries' depends on axioms: [propext, Quot.sound] -/
#guard_msgs (whitespace := lax) in #print axioms Records.C101_carries

/-- info: 'Records.C101_declaration' depends on axioms: [propext, Quot.sound] -/
#guard_msgs (whitespace := lax) in #print axioms Records.C101_declaration

/-- info: 'Records.C101_filter' depends on axioms: [propext, Quot.sound] -/
#guard_msgs (whitespace := lax) in #print axioms Records.C101_filter

/-- info: 'Records.C101_numbering' depends on axioms: [propext, Classical.choice, Quot.sound] -/
#guard_msgs (whitespace := lax) in #print axioms Records.C101_numbering

/-- info: 'Records.C101_numbers' depends on axioms: [propext, Quot.sound] -/
#guard_msgs (whitespace := lax) in #print axioms Records.C101_numbers

/-- info: 'Records.C101_refuted' depends on axioms: [propext, Classical.choice, Quot.sound] -/
#guard_msgs (whitespace := lax) in #print axioms Records.C101_refuted

/-- info: 'Records.C101_unhashable' does not depend on any axioms -/
#guard_msgs (whitespace := lax) in #print axioms Records.C101_unhashable

/-- info: 'Records.C102_clash' depends on axioms: [propext, Classical.choice, Quot.sound] -/
#guard_msgs (whitespace := lax) in #print axioms Records.C102_clash

/-- info: 'Records.C102_from_json_io' depends on axioms: [propext, Quot.sound] -/
#guard_msgs (whitespace := lax) in #print axioms Records.C102_from_json_io

/-- info: 'Records.C102_from_pickle' depends on axioms: [propext, Classical.choice, Quot.sound] -/
#guard_msgs (whitespace := lax) in #print axioms Records.C102_from_pickle

/-- info: 'Records.C102_from_pickle_io' depends on axioms: [propext, Classical.choice, Quot.sound] -/
#guard_msgs (whitespace := lax) in #print axioms Records.C102_from_pickle_io

/-- info: 'Records.C102_no_file' depends on axioms: [propext, Quot.sound] -/
#guard_msgs (whitespace := lax) in #print axioms Records.C102_no_file

/-- info: 'Records.C102_through_file' depends on axioms: [propext, Classical.choice, Quot.sound] -/
#guard_msgs (whitespace := lax) in #print axioms Records.C102_through_file

/-- info: 'Records.C102_to_json' depends on axioms: [propext, Classical.choice, Quot.sound] -/
#guard_msgs (whitespace := lax) in #print axioms Records.C102_to_json

/-- info: 'Records.C102_to_pickle' depends on axioms: [propext, Quot.sound] -/
#guard_msgs (whitespace := lax) in #print axioms Records.C102_to_pickle

/-- info: 'Records.C103_degenerate' depends on axioms: [propext, Classical.choice, Quot.sound] -/
#guard_msgs (whitespace := lax) in #print axioms Records.C103_degenerate

/-- info: 'Records.C103_exact' depends on axioms: [propext, Classical.choice, Quot.sound] -/
#guard_msgs (whitespace := lax) in #print axioms Records.C103_exact

/-- info: 'Records.C103_range' depends on axioms: [propext, Classical.choice, Quot.sound] -/
#guard_msgs (whitespace := lax) in #print axioms Records.C103_range

/-- info: 'Records.C103_refuted' depends on axioms: [propext, Classical.choice, Quot.sound] -/
#guard_msgs (whitespace := lax) in #print axioms Records.C103_refuted

/-- info: 'Records.C103_rounding' depends on axioms: [propext, Classical.choice, Quot.sound] -/
#guard_msgs (whitespace := lax) in #print axioms Records.C103_rounding

/-- info: 'Records.C103_whole' depends on axioms: [propext, Classical.choice, Quot.sound] -/
#guard_msgs (whitespace := lax) in #print axioms Records.C103_whole

/-- info: 'Records.C103_zero' depends on axioms: [propext, Classical.choice, Quot.sound] -/
#guard_msgs (whitespace := lax) in #print axioms Records.C103_zero

/-- info: 'Records.C104_builtin_tokens' depends on axioms: [propext, Quot.sound] -/
#guard_msgs (whitespace := lax) in #print axioms Records.C104_builtin_tokens

/-- info: 'Records.C104_construct' depends on axioms: [propext, Classical.choice, Quot.sound] -/
#guard_msgs (whitespace := lax) in #print axioms Records.C104_construct

/-- info: 'Records.C104_fill' depends on axioms: [propext, Quot.sound] -/
#guard_msgs (whitespace := lax) in #print axioms Records.C104_fill

/-- info: 'Records.C104_from_instance' depends on axioms: [propext, Classical.choice, Quot.sound] -/
#guard_msgs (whitespace := lax) in #print axioms Records.C104_from_instance

/-- info: 'Records.C104_from_json' depends on axioms: [propext, Classical.choice, Quot.sound] -/
#guard_msgs (whitespace := lax) in #print axioms Records.C104_from_json

/-- info: 'Records.C104_from_mapping' depends on axioms: [propext, Classical.choice, Quot.sound] -/
#guard_msgs (whitespace := lax) in #print axioms Records.C104_from_mapping

/-- info: 'Records.C104_parse' depends on axioms: [propext, Classical.choice, Quot.sound] -/
#guard_msgs (whitespace := lax) in #print axioms Records.C104_parse

/-- info: 'Records.C104_select' does not depend on any axioms -/
#guard_msgs (whitespace := lax) in #print axioms Records.C104_select

/-- info: 'Records.C105_copy' depends on axioms: [propext, Classical.choice, Quot.sound] -/
#guard_msgs (whitespace := lax) in #print axioms Records.C105_copy

/-- info: 'Records.C105_frozen' depends on axioms: [propext, Classical.choice, Quot.sound] -/
#guard_msgs (whitespace := lax) in #print axioms Records.C105_frozen

/-- info: 'Records.C105_refuted' depends on axioms: [propext, Classical.choice, Quot.sound] -/
#guard_msgs (whitespace := lax) in #print axioms Records.C105_refuted

/-- info: 'Records.C105_single' depends on axioms: [propext, Classical.choice, Quot.sound] -/
#guard_msgs (whitespace := lax) in #print axioms Records.C105_single

/-- info: 'Records.C105_stored' depends on axioms: [propext, Classical.choice, Quot.sound] -/
#guard_msgs (whitespace := lax) in #print axioms Records.C105_stored

/-- info: 'Records.C106_agree' depends on axioms: [propext, Quot.sound] -/
#guard_msgs (whitespace := lax) in #print axioms Records.C106_agree

/-- info: 'Records.C106_clamp' depends on axioms: [propext, Quot.sound] -/
#guard_msgs (whitespace := lax) in #print axioms Records.C106_clamp

/-- info: 'Records.C106_init' depends on axioms: [propext, Classical.choice, Quot.sound] -/
#guard_msgs (whitespace := lax) in #print axioms Records.C106_init

/-- info: 'Records.C106_nan_bound' depends on axioms: [propext] -/
#guard_msgs (whitespace := lax) in #print axioms Records.C106_nan_bound

/-- info: 'Records.C106_refuted' depends on axioms: [propext] -/
#guard_msgs (whitespace := lax) in #print axioms Records.C106_refuted

/-- info: 'Records.C106_within' depends on axioms: [propext, Quot.sound] -/
#guard_msgs (whitespace := lax) in #print axioms Records.C106_within

/-- info: 'Records.C107_left' does not depend on any axioms -/
#guard_msgs (whitespace := lax) in #print axioms Records.C107_left

/-- info: 'Records.C107_left_equal' does not depend on any axioms -/
#guard_msgs (whitespace := lax) in #print axioms Records.C107_left_equal

/-- info: 'Records.C107_left_unordered' does not depend on any axioms -/
#guard_msgs (whitespace := lax) in #print axioms Records.C107_left_unordered

/-- info: 'Records.C107_reflected' depends on axioms: [propext] -/
#guard_msgs (whitespace := lax) in #print axioms Records.C107_reflected

/-- info: 'Records.C107_refuted' depends on axioms: [propext, Classical.choice, Quot.sound] -/
#guard_msgs (whitespace := lax) in #print axioms Records.C107_refuted

/-- info: 'Records.C107_right' depends on axioms: [propext] -/
#guard_msgs (whitespace := lax) in #print axioms Records.C107_right

/-- info: 'Records.C107_right_equal' depends on axioms: [propext] -/
#guard_msgs (whitespace := lax) in #print axioms Records.C107_right_equal

/-- info: 'Records.C108_causes' depends on axioms: [propext, Classical.choice, Quot.sound] -/
#guard_msgs (whitespace := lax) in #print axioms Records.C108_causes

/-- info: 'Records.C108_program' depends on axioms: [propext, Classical.choice, Quot.sound] -/
#guard_msgs (whitespace := lax) in #print axioms Records.C108_program

/-- info: 'Records.C109_eq' depends on axioms: [propext, Classical.choice, Quot.sound] -/
#guard_msgs (whitespace := lax) in #print axioms Records.C109_eq

/-- info: 'Records.C109_eq_frozen' depends on axioms: [propext, Classical.choice, Quot.sound] -/
#guard_msgs (whitespace := lax) in #print axioms Records.C109_eq_frozen

/-- info: 'Records.C109_hash' depends on axioms: [propext, Classical.choice, Quot.sound] -/
#guard_msgs (whitespace := lax) in #print axioms Records.C109_hash

/-- info: 'Records.C109_hash_cached' depends on axioms: [propext, Classical.choice, Quot.sound] -/
#guard_msgs (whitespace := lax) in #print axioms Records.C109_hash_cached

/-- info: 'Records.C109_include_defaults' depends on axioms: [propext, Classical.choice, Quot.sound] -/
#guard_msgs (whitespace := lax) in #print axioms Records.C109_include_defaults

/-- info: 'Records.C109_no_defaults' depends on axioms: [propext, Classical.choice, Quot.sound] -/
#guard_msgs (whitespace := lax) in #print axioms Records.C109_no_defaults

/-- info: 'Records.C109_order_self' depends on axioms: [propext, Quot.sound] -/
#guard_msgs (whitespace := lax) in #print axioms Records.C109_order_self

/-- info: 'Records.C109_plain_eq' depends on axioms: [propext, Classical.choice, Quot.sound] -/
#guard_msgs (whitespace := lax) in #print axioms Records.C109_plain_eq

/-- info: 'Records.C109_plain_hash' depends on axioms: [propext, Classical.choice, Quot.sound] -/
#guard_msgs (whitespace := lax) in #print axioms Records.C109_plain_hash

/-- info: 'Records.C109_plain_order' depends on axioms: [propext, Quot.sound] -/
#guard_msgs (whitespace := lax) in #print axioms Records.C109_plain_order

/-- info: 'Records.C109_plain_repr' depends on axioms: [propext, Classical.choice, Quot.sound] -/
#guard_msgs (whitespace := lax) in #print axioms Records.C109_plain_repr

/-- info: 'Records.C109_plain_to_dict' depends on axioms: [propext, Classical.choice, Quot.sound] -/
#guard_msgs (whitespace := lax) in #print axioms Records.C109_plain_to_dict

/-- info: 'Records.C109_refuted' depends on axioms: [propext, Classical.choice, Quot.sound] -/
#guard_msgs (whitespace := lax) in #print axioms Records.C109_refuted

/-- info: 'Records.C109_repr' depends on axioms: [propext, Classical.choice, Quot.sound] -/
#guard_msgs (whitespace := lax) in #print axioms Records.C109_repr

/-- info: 'Records.C109_to_dict' depends on axioms: [propext, Classical.choice, Quot.sound] -/
#guard_msgs (whitespace := lax) in #print axioms Records.C109_to_dict

/-- info: 'Records.C110_declared' depends on axioms: [propext] -/
#guard_msgs (whitespace := lax) in #print axioms Records.C110_declared

/-- info: 'Records.C110_full_match' depends on axioms: [propext] -/
#guard_msgs (whitespace := lax) in #print axioms Records.C110_full_match

/-- info: 'Records.C110_json' depends on axioms: [propext, Classical.choice, Quot.sound] -/
#guard_msgs (whitespace := lax) in #print axioms Records.C110_json

/-- info: 'Records.C110_kept' depends on axioms: [propext] -/
#guard_msgs (whitespace := lax) in #print axioms Records.C110_kept

/-- info: 'Records.C110_pickle' depends on axioms: [propext, Classical.choice, Quot.sound] -/
#guard_msgs (whitespace := lax) in #print axioms Records.C110_pickle

/-- info: 'Records.C111_eq' depends on axioms: [propext, Classical.choice, Quot.sound] -/
#guard_msgs (whitespace := lax) in #print axioms Records.C111_eq

/-- info: 'Records.C111_hash' depends on axioms: [propext, Classical.choice, Quot.sound] -/
#guard_msgs (whitespace := lax) in #print axioms Records.C111_hash

/-- info: 'Records.C111_in_use' depends on axioms: [propext, Classical.choice, Quot.sound] -/
#guard_msgs (whitespace := lax) in #print axioms Records.C111_in_use

/-- info: 'Records.C111_operation' depends on axioms: [propext, Classical.choice, Quot.sound] -/
#guard_msgs (whitespace := lax) in #print axioms Records.C111_operation

/-- info: 'Records.C111_order' depends on axioms: [propext, Classical.choice, Quot.sound] -/
#guard_msgs (whitespace := lax) in #print axioms Records.C111_order

/-- info: 'Records.C111_read' depends on axioms: [propext, Classical.choice, Quot.sound] -/
#guard_msgs (whitespace := lax) in #print axioms Records.C111_read

/-- info: 'Records.C111_repr' depends on axioms: [propext, Classical.choice, Quot.sound] -/
#guard_msgs (whitespace := lax) in #print axioms Records.C111_repr

/-- info: 'Records.C111_to_dict' depends on axioms: [propext, Classical.choice, Quot.sound] -/
#guard_msgs (whitespace := lax) in #print axioms Records.C111_to_dict

/-- info: 'Records.C112_empty' depends on axioms: [propext, Classical.choice, Quot.sound] -/
#guard_msgs (whitespace := lax) in #print axioms Records.C112_empty

/-- info: 'Records.C112_export' depends on axioms: [propext, Classical.choice, Quot.sound] -/
#guard_msgs (whitespace := lax) in #print axioms Records.C112_export

/-- info: 'Records.C112_fresh' depends on axioms: [propext, Classical.choice, Quot.sound] -/
#guard_msgs (whitespace := lax) in #print axioms Records.C112_fresh

/-- info: 'Records.C112_from_instance' depends on axioms: [propext, Classical.choice, Quot.sound] -/
#guard_msgs (whitespace := lax) in #print axioms Records.C112_from_instance

/-- info: 'Records.C112_from_json' depends on axioms: [propext, Quot.sound] -/
#guard_msgs (whitespace := lax) in #print axioms Records.C112_from_json

/-- info: 'Records.C112_from_mapping' depends on axioms: [propext, Quot.sound] -/
#guard_msgs (whitespace := lax) in #print axioms Records.C112_from_mapping

/-- info: 'Records.C112_later' depends on axioms: [propext, Classical.choice, Quot.sound] -/
#guard_msgs (whitespace := lax) in #print axioms Records.C112_later

/-- info: 'Records.C112_merge' depends on axioms: [propext, Quot.sound] -/
#guard_msgs (whitespace := lax) in #print axioms Records.C112_merge

/-- info: 'Records.C112_reiterable' depends on axioms: [propext, Quot.sound] -/
#guard_msgs (whitespace := lax) in #print axioms Records.C112_reiterable

/-- info: 'Records.Toy.Once.C112_refuted_from_instance' depends on axioms: [propext, Classical.choice, Quot.sound] -/
#guard_msgs (whitespace := lax) in #print axioms Records.Toy.Once.C112_refuted_from_instance

/-- info: 'Records.Toy.Once.C112_refuted_from_mapping' depends on axioms: [propext, Classical.choice, Quot.sound] -/
#guard_msgs (whitespace := lax) in #print axioms Records.Toy.Once.C112_refuted_from_mapping

/-- info: 'Records.C113_call' depends on axioms: [propext, Classical.choice, Quot.sound] -/
#guard_msgs (whitespace := lax) in #print axioms Records.C113_call

/-- info: 'Records.C113_call_silent' depends on axioms: [propext, Classical.choice, Quot.sound] -/
#guard_msgs (whitespace := lax) in #print axioms Records.C113_call_silent

/-- info: 'Records.C113_init' depends on axioms: [propext, Classical.choice, Quot.sound] -/
#guard_msgs (whitespace := lax) in #print axioms Records.C113_init

/-- info: 'Records.C113_setattr_hash' depends on axioms: [propext, Classical.choice, Quot.sound] -/
#guard_msgs (whitespace := lax) in #print axioms Records.C113_setattr_hash

/-- info: 'Records.C113_silent' depends on axioms: [propext, Classical.choice, Quot.sound] -/
#guard_msgs (whitespace := lax) in #print axioms Records.C113_silent

/-- info: 'Records.C113_warnings' depends on axioms: [propext, Classical.choice, Quot.sound] -/
#guard_msgs (whitespace := lax) in #print axioms Records.C113_warnings

/-- info: 'Records.Toy.Spc.C113_refuted_not_called' depends on axioms: [propext, Classical.choice, Quot.sound] -/
#guard_msgs (whitespace := lax) in #print axioms Records.Toy.Spc.C113_refuted_not_called

/-- info: 'Records.Toy.Spc.C113_refuted_overridden' depends on axioms: [propext, Classical.choice, Quot.sound] -/
#guard_msgs (whitespace := lax) in #print axioms Records.Toy.Spc.C113_refuted_overridden

/-- info: 'Records.C114_dict' depends on axioms: [propext, Classical.choice, Quot.sound] -/
#guard_msgs (whitespace := lax) in #print axioms Records.C114_dict

/-- info: 'Records.C114_len' depends on axioms: [propext, Classical.choice, Quot.sound] -/
#guard_msgs (whitespace := lax) in #print axioms Records.C114_len

/-- info: 'Records.C114_not_frozen' depends on axioms: [propext, Classical.choice, Quot.sound] -/
#guard_msgs (whitespace := lax) in #print axioms Records.C114_not_frozen

/-- info: 'Records.C114_raises' depends on axioms: [propext, Classical.choice, Quot.sound] -/
#guard_msgs (whitespace := lax) in #print axioms Records.C114_raises

/-- info: 'Records.C114_refuted' depends on axioms: [propext, Classical.choice, Quot.sound] -/
#guard_msgs (whitespace := lax) in #print axioms Records.C114_refuted

/-- info: 'Records.C115_algorithm' depends on axioms: [propext, Classical.choice, Quot.sound] -/
#guard_msgs (whitespace := lax) in #print axioms Records.C115_algorithm

/-- info: 'Records.C115_permuted' depends on axioms: [propext, Classical.choice, Quot.sound] -/
#guard_msgs (whitespace := lax) in #print axioms Records.C115_permuted

/-- info: 'Records.C115_refuted' depends on axioms: [propext, Classical.choice, Quot.sound] -/
#guard_msgs (whitespace := lax) in #print axioms Records.C115_refuted

/-- info: 'Records.C115_sorted' depends on axioms: [propext, Classical.choice, Quot.sound] -/
#guard_msgs (whitespace := lax) in #print axioms Records.C115_sorted

/-- info: 'Records.C115_stable' depends on axioms: [propext, Classical.choice, Quot.sound] -/
#guard_msgs (whitespace := lax) in #print axioms Records.C115_stable

/-- info: 'Records.C115_unordered' depends on axioms: [propext, Classical.choice, Quot.sound] -/
#guard_msgs (whitespace := lax) in #print axioms Records.C115_unordered

/-- info: 'Records.C116_eval' depends on axioms: [propext, Classical.choice, Quot.sound] -/
#guard_msgs (whitespace := lax) in #print axioms Records.C116_eval

/-- info: 'Records.C116_nests' depends on axioms: [propext, Classical.choice, Quot.sound] -/
#guard_msgs (whitespace := lax) in #print axioms Records.C116_nests

/-- info: 'Records.C116_reads' depends on axioms: [propext, Classical.choice, Quot.sound] -/
#guard_msgs (whitespace := lax) in #print axioms Records.C116_reads

/-- info: 'Records.C116_refuted' depends on axioms: [propext, Classical.choice, Quot.sound] -/
#guard_msgs (whitespace := lax) in #print axioms Records.C116_refuted

/-- info: 'Records.C116_same' depends on axioms: [propext, Classical.choice, Quot.sound] -/
#guard_msgs (whitespace := lax) in #print axioms Records.C116_same

/-- info: 'Records.C117_consistent' depends on axioms: [propext, Classical.choice, Quot.sound] -/
#guard_msgs (whitespace := lax) in #print axioms Records.C117_consistent

/-- info: 'Records.C117_lexicographic' depends on axioms: [propext, Classical.choice, Quot.sound] -/
#guard_msgs (whitespace := lax) in #print axioms Records.C117_lexicographic

/-- info: 'Records.C117_mutual' depends on axioms: [propext, Classical.choice, Quot.sound] -/
#guard_msgs (whitespace := lax) in #print axioms Records.C117_mutual

/-- info: 'Records.C117_prefix' depends on axioms: [propext, Quot.sound] -/
#guard_msgs (whitespace := lax) in #print axioms Records.C117_prefix

/-- info: 'Records.C117_refuted' depends on axioms: [propext, Classical.choice, Quot.sound] -/
#guard_msgs (whitespace := lax) in #print axioms Records.C117_refuted

/-- info: 'Records.C117_stable' depends on axioms: [propext, Classical.choice, Quot.sound] -/
#guard_msgs (whitespace := lax) in #print axioms Records.C117_stable

/-- info: 'Records.C117_total' depends on axioms: [propext, Classical.choice, Quot.sound] -/
#guard_msgs (whitespace := lax) in #print axioms Records.C117_total

/-- info: 'Records.C117_trans' depends on axioms: [propext, Classical.choice, Quot.sound] -/
#guard_msgs (whitespace := lax) in #print axioms Records.C117_trans

/-- info: 'Records.C118_demand' depends on axioms: [propext] -/
#guard_msgs (whitespace := lax) in #print axioms Records.C118_demand

/-- info: 'Records.C118_plain' depends on axioms: [propext, Classical.choice, Quot.sound] -/
#guard_msgs (whitespace := lax) in #print axioms Records.C118_plain

/-- info: 'Records.C118_refuted' depends on axioms: [propext, Classical.choice, Quot.sound] -/
#guard_msgs (whitespace := lax) in #print axioms Records.C118_refuted

/-- info: 'Records.C118_serves' depends on axioms: [propext, Quot.sound] -/
#guard_msgs (whitespace := lax) in #print axioms Records.C118_serves

/-- info: 'Records.C118_sets' depends on axioms: [propext, Quot.sound] -/
#guard_msgs (whitespace := lax) in #print axioms Records.C118_sets

/-- info: 'Records.C118_slicing' depends on axioms: [propext, Quot.sound] -/
#guard_msgs (whitespace := lax) in #print axioms Records.C118_slicing

/-- info: 'Records.C118_through' does not depend on any axioms -/
#guard_msgs (whitespace := lax) in #print axioms Records.C118_through

/-- info: 'Records.C118_total' does not depend on any axioms -/
#guard_msgs (whitespace := lax) in #print axioms Records.C118_total

/-- info: 'Records.C118_tuple' depends on axioms: [propext, Quot.sound] -/
#guard_msgs (whitespace := lax) in #print axioms Records.C118_tuple

/-- info: 'Records.C118_unhashable' depends on axioms: [propext, Quot.sound] -/
#guard_msgs (whitespace := lax) in #print axioms Records.C118_unhashable

/-- info: 'Records.C119_alone' depends on axioms: [propext, Classical.choice, Quot.sound] -/
#guard_msgs (whitespace := lax) in #print axioms Records.C119_alone

/-- info: 'Records.C119_alone_apply' depends on axioms: [propext, Quot.sound] -/
#guard_msgs (whitespace := lax) in #print axioms Records.C119_alone_apply

/-- info: 'Records.C119_alone_eq' depends on axioms: [propext, Classical.choice, Quot.sound] -/
#guard_msgs (whitespace := lax) in #print axioms Records.C119_alone_eq

/-- info: 'Records.C119_answers' depends on axioms: [propext, Classical.choice, Quot.sound] -/
#guard_msgs (whitespace := lax) in #print axioms Records.C119_answers

/-- info: 'Records.C119_finishes' depends on axioms: [propext, Classical.choice, Quot.sound] -/
#guard_msgs (whitespace := lax) in #print axioms Records.C119_finishes

/-- info: 'Records.C119_memory' depends on axioms: [propext, Classical.choice, Quot.sound] -/
#guard_msgs (whitespace := lax) in #print axioms Records.C119_memory

/-- info: 'Records.C119_refuted_compare' depends on axioms: [propext, Classical.choice, Quot.sound] -/
#guard_msgs (whitespace := lax) in #print axioms Records.C119_refuted_compare

/-- info: 'Records.C119_refuted_export' depends on axioms: [propext, Classical.choice, Quot.sound] -/
#guard_msgs (whitespace := lax) in #print axioms Records.C119_refuted_export

/-- info: 'Records.C119_schedule' depends on axioms: [propext] -/
#guard_msgs (whitespace := lax) in #print axioms Records.C119_schedule

/-- info: 'Records.C120_deepcopy' depends on axioms: [propext, Classical.choice, Quot.sound] -/
#guard_msgs (whitespace := lax) in #print axioms Records.C120_deepcopy

/-- info: 'Records.C120_equivalence' depends on axioms: [propext, Quot.sound] -/
#guard_msgs (whitespace := lax) in #print axioms Records.C120_equivalence

/-- info: 'Records.C120_hash' depends on axioms: [propext] -/
#guard_msgs (whitespace := lax) in #print axioms Records.C120_hash

/-- info: 'Records.C120_hashed' depends on axioms: [propext, Quot.sound] -/
#guard_msgs (whitespace := lax) in #print axioms Records.C120_hashed

/-- info: 'Records.C120_library' depends on axioms: [propext, Classical.choice, Quot.sound] -/
#guard_msgs (whitespace := lax) in #print axioms Records.C120_library

/-- info: 'Records.C120_mutable' depends on axioms: [propext, Quot.sound] -/
#guard_msgs (whitespace := lax) in #print axioms Records.C120_mutable

/-- info: 'Records.C120_pickle' depends on axioms: [propext, Classical.choice, Quot.sound] -/
#guard_msgs (whitespace := lax) in #print axioms Records.C120_pickle

/-- info: 'Records.C120_refuted' depends on axioms: [propext, Classical.choice, Quot.sound] -/
#guard_msgs (whitespace := lax) in #print axioms Records.C120_refuted

/-- info: 'Records.C120_respects' depends on axioms: [propext, Classical.choice, Quot.sound] -/
#guard_msgs (whitespace := lax) in #print axioms Records.C120_respects

/-- info: 'Records.C120_true' depends on axioms: [propext, Quot.sound] -/
#guard_msgs (whitespace := lax) in #print axioms Records.C120_true

/-- info: 'Records.C121_copy' depends on axioms: [propext, Classical.choice, Quot.sound] -/
#guard_msgs (whitespace := lax) in #print axioms Records.C121_copy

/-- info: 'Records.C121_independent' depends on axioms: [propext, Classical.choice, Quot.sound] -/
#guard_msgs (whitespace := lax) in #print axioms Records.C121_independent

/-- info: 'Records.C121_refuted_cycle' depends on axioms: [propext, Classical.choice, Quot.sound] -/
#guard_msgs (whitespace := lax) in #print axioms Records.C121_refuted_cycle

/-- info: 'Records.C121_refuted_independent' depends on axioms: [propext, Classical.choice, Quot.sound] -/
#guard_msgs (whitespace := lax) in #print axioms Records.C121_refuted_independent

/-- info: 'Records.C121_refuted_tuple' depends on axioms: [propext, Classical.choice, Quot.sound] -/
#guard_msgs (whitespace := lax) in #print axioms Records.C121_refuted_tuple

/-- info: 'Records.C121_returns' depends on axioms: [propext, Classical.choice, Quot.sound] -/
#guard_msgs (whitespace := lax) in #print axioms Records.C121_returns

/-- info: 'Records.C121_self' depends on axioms: [propext, Classical.choice, Quot.sound] -/
#guard_msgs (whitespace := lax) in #print axioms Records.C121_self

/-- info: 'Records.C122_equivalence' depends on axioms: [propext, Classical.choice, Quot.sound] -/
#guard_msgs (whitespace := lax) in #print axioms Records.C122_equivalence

/-- info: 'Records.C122_hash' depends on axioms: [propext, Classical.choice, Quot.sound] -/
#guard_msgs (whitespace := lax) in #print axioms Records.C122_hash

/-- info: 'Records.C122_hashable' depends on axioms: [propext, Classical.choice, Quot.sound] -/
#guard_msgs (whitespace := lax) in #print axioms Records.C122_hashable

/-- info: 'Records.C122_tree' depends on axioms: [propext, Classical.choice, Quot.sound] -/
#guard_msgs (whitespace := lax) in #print axioms Records.C122_tree

/-- info: 'Records.C123_refuted_transitive' depends on axioms: [propext, Classical.choice, Quot.sound] -/
#guard_msgs (whitespace := lax) in #print axioms Records.C123_refuted_transitive

/-- info: 'Records.C123_total' depends on axioms: [propext, Classical.choice, Quot.sound] -/
#guard_msgs (whitespace := lax) in #print axioms Records.C123_total

/-- info: 'Records.C124_document' depends on axioms: [propext, Classical.choice, Quot.sound] -/
#guard_msgs (whitespace := lax) in #print axioms Records.C124_document

/-- info: 'Records.C124_keywords' depends on axioms: [propext, Classical.choice, Quot.sound] -/
#guard_msgs (whitespace := lax) in #print axioms Records.C124_keywords

/-- info: 'Records.C124_leaf' depends on axioms: [propext, Quot.sound] -/
#guard_msgs (whitespace := lax) in #print axioms Records.C124_leaf

/-- info: 'Records.C124_none' depends on axioms: [propext, Classical.choice, Quot.sound] -/
#guard_msgs (whitespace := lax) in #print axioms Records.C124_none

/-- info: 'Records.C124_refuted_single' depends on axioms: [propext, Classical.choice, Quot.sound] -/
#guard_msgs (whitespace := lax) in #print axioms Records.C124_refuted_single

/-- info: 'Records.C125_dumps' depends on axioms: [propext, Classical.choice, Quot.sound] -/
#guard_msgs (whitespace := lax) in #print axioms Records.C125_dumps

/-- info: 'Records.C125_loads' depends on axioms: [propext, Classical.choice, Quot.sound] -/
#guard_msgs (whitespace := lax) in #print axioms Records.C125_loads

/-- info: 'Records.C125_refuses' depends on axioms: [propext, Classical.choice, Quot.sound] -/
#guard_msgs (whitespace := lax) in #print axioms Records.C125_refuses

/-- info: 'Records.C125_restored' depends on axioms: [propext, Classical.choice, Quot.sound] -/
#guard_msgs (whitespace := lax) in #print axioms Records.C125_restored

/-- info: 'Records.C126_back' depends on axioms: [propext, Classical.choice, Quot.sound] -/
#guard_msgs (whitespace := lax) in #print axioms Records.C126_back

/-- info: 'Records.C126_document' depends on axioms: [propext, Classical.choice, Quot.sound] -/
#guard_msgs (whitespace := lax) in #print axioms Records.C126_document

/-- info: 'Records.C126_json' depends on axioms: [propext, Classical.choice, Quot.sound] -/
#guard_msgs (whitespace := lax) in #print axioms Records.C126_json

/-- info: 'Records.C126_keywords' depends on axioms: [propext, Classical.choice, Quot.sound] -/
#guard_msgs (whitespace := lax) in #print axioms Records.C126_keywords

/-- info: 'Records.C126_refuted_union' depends on axioms: [propext, Classical.choice, Quot.sound] -/
#guard_msgs (whitespace := lax) in #print axioms Records.C126_refuted_union

/-- info: 'Records.C127_copy' depends on axioms: [propext, Classical.choice, Quot.sound] -/
#guard_msgs (whitespace := lax) in #print axioms Records.C127_copy

/-- info: 'Records.C127_pickle' depends on axioms: [propext, Classical.choice, Quot.sound] -/
#guard_msgs (whitespace := lax) in #print axioms Records.C127_pickle

/-- info: 'Records.C128_cached' depends on axioms: [propext, Classical.choice, Quot.sound] -/
#guard_msgs (whitespace := lax) in #print axioms Records.C128_cached

/-- info: 'Records.C128_constant' depends on axioms: [propext, Classical.choice, Quot.sound] -/
#guard_msgs (whitespace := lax) in #print axioms Records.C128_constant

/-- info: 'Records.C128_equal' depends on axioms: [propext, Classical.choice, Quot.sound] -/
#guard_msgs (whitespace := lax) in #print axioms Records.C128_equal

/-- info: 'Records.C128_hash' depends on axioms: [propext, Classical.choice, Quot.sound] -/
#guard_msgs (whitespace := lax) in #print axioms Records.C128_hash

/-- info: 'Records.C128_refuted' depends on axioms: [propext, Classical.choice, Quot.sound] -/
#guard_msgs (whitespace := lax) in #print axioms Records.C128_refuted

/-- info: 'Records.C129_checked' depends on axioms: [propext, Classical.choice, Quot.sound] -/
#guard_msgs (whitespace := lax) in #print axioms Records.C129_checked

/-- info: 'Records.C129_class' depends on axioms: [propext, Classical.choice, Quot.sound] -/
#guard_msgs (whitespace := lax) in #print axioms Records.C129_class

/-- info: 'Records.C129_field' depends on axioms: [propext, Classical.choice, Quot.sound] -/
#guard_msgs (whitespace := lax) in #print axioms Records.C129_field

/-- info: 'Records.C129_misfit' depends on axioms: [propext, Classical.choice, Quot.sound] -/
#guard_msgs (whitespace := lax) in #print axioms Records.C129_misfit

/-- info: 'Records.C129_part' depends on axioms: [propext, Classical.choice, Quot.sound] -/
#guard_msgs (whitespace := lax) in #print axioms Records.C129_part

/-- info: 'Records.C129_target' depends on axioms: [propext, Classical.choice, Quot.sound] -/
#guard_msgs (whitespace := lax) in #print axioms Records.C129_target

/-- info: 'Records.C129_unchecked' depends on axioms: [propext, Classical.choice, Quot.sound] -/
#guard_msgs (whitespace := lax) in #print axioms Records.C129_unchecked

/-- info: 'Records.C130_arity' depends on axioms: [propext, Quot.sound] -/
#guard_msgs (whitespace := lax) in #print axioms Records.C130_arity

/-- info: 'Records.C130_extra' depends on axioms: [propext, Quot.sound] -/
#guard_msgs (whitespace := lax) in #print axioms Records.C130_extra

/-- info: 'Records.C130_meaning' depends on axioms: [propext, Classical.choice, Quot.sound] -/
#guard_msgs (whitespace := lax) in #print axioms Records.C130_meaning

/-- info: 'Records.C130_refuted' depends on axioms: [propext, Classical.choice, Quot.sound] -/
#guard_msgs (whitespace := lax) in #print axioms Records.C130_refuted

/-- info: 'Records.C130_same' depends on axioms: [propext, Quot.sound] -/
#guard_msgs (whitespace := lax) in #print axioms Records.C130_same

/-- info: 'Records.C130_unknown' depends on axioms: [propext, Quot.sound] -/
#guard_msgs (whitespace := lax) in #print axioms Records.C130_unknown

/-- info: 'Records.C131_alike' depends on axioms: [propext, Classical.choice, Quot.sound] -/
#guard_msgs (whitespace := lax) in #print axioms Records.C131_alike

/-- info: 'Records.C131_copy' depends on axioms: [propext, Classical.choice, Quot.sound] -/
#guard_msgs (whitespace := lax) in #print axioms Records.C131_copy

/-- info: 'Records.C131_ends' depends on axioms: [propext, Classical.choice, Quot.sound] -/
#guard_msgs (whitespace := lax) in #print axioms Records.C131_ends

/-- info: 'Records.C131_exact' depends on axioms: [propext, Classical.choice, Quot.sound] -/
#guard_msgs (whitespace := lax) in #print axioms Records.C131_exact

/-- info: 'Records.C131_limit' depends on axioms: [propext, Classical.choice, Quot.sound] -/
#guard_msgs (whitespace := lax) in #print axioms Records.C131_limit

/-- info: 'Records.C131_loops' depends on axioms: [propext, Classical.choice, Quot.sound] -/
#guard_msgs (whitespace := lax) in #print axioms Records.C131_loops

/-- info: 'Records.C131_pickle' depends on axioms: [propext, Classical.choice, Quot.sound] -/
#guard_msgs (whitespace := lax) in #print axioms Records.C131_pickle

/-- info: 'Records.C131_reads' depends on axioms: [propext, Classical.choice, Quot.sound] -/
#guard_msgs (whitespace := lax) in #print axioms Records.C131_reads

/-- info: 'Records.C131_text' depends on axioms: [propext, Classical.choice, Quot.sound] -/
#guard_msgs (whitespace := lax) in #print axioms Records.C131_text

/-- info: 'Records.Toy.Prn.C131_refuted' depends on axioms: [propext, Classical.choice, Quot.sound] -/
#guard_msgs (whitespace := lax) in #print axioms Records.Toy.Prn.C131_refuted

/-- info: 'Records.C132_copies' depends on axioms: [propext, Classical.choice, Quot.sound] -/
#guard_msgs (whitespace := lax) in #print axioms Records.C132_copies

/-- info: 'Records.C132_deepcopy' depends on axioms: [propext, Classical.choice, Quot.sound] -/
#guard_msgs (whitespace := lax) in #print axioms Records.C132_deepcopy

/-- info: 'Records.C132_differ' depends on axioms: [propext, Classical.choice, Quot.sound] -/
#guard_msgs (whitespace := lax) in #print axioms Records.C132_differ

/-- info: 'Records.C132_ends' depends on axioms: [propext, Classical.choice, Quot.sound] -/
#guard_msgs (whitespace := lax) in #print axioms Records.C132_ends

/-- info: 'Records.C132_equal' depends on axioms: [propext, Classical.choice, Quot.sound] -/
#guard_msgs (whitespace := lax) in #print axioms Records.C132_equal

/-- info: 'Records.C132_exclusive' depends on axioms: [propext] -/
#guard_msgs (whitespace := lax) in #print axioms Records.C132_exclusive

/-- info: 'Records.C132_limit' depends on axioms: [propext, Classical.choice, Quot.sound] -/
#guard_msgs (whitespace := lax) in #print axioms Records.C132_limit

/-- info: 'Records.C132_loops' depends on axioms: [propext, Classical.choice, Quot.sound] -/
#guard_msgs (whitespace := lax) in #print axioms Records.C132_loops

/-- info: 'Records.C132_nested' depends on axioms: [propext, Classical.choice, Quot.sound] -/
#guard_msgs (whitespace := lax) in #print axioms Records.C132_nested

/-- info: 'Records.C132_only' depends on axioms: [propext, Classical.choice, Quot.sound] -/
#guard_msgs (whitespace := lax) in #print axioms Records.C132_only

/-- info: 'Records.C132_pickle' depends on axioms: [propext, Classical.choice, Quot.sound] -/
#guard_msgs (whitespace := lax) in #print axioms Records.C132_pickle

/-- info: 'Records.C132_record' depends on axioms: [propext, Classical.choice, Quot.sound] -/
#guard_msgs (whitespace := lax) in #print axioms Records.C132_record

/-- info: 'Records.C132_self' depends on axioms: [propext, Classical.choice, Quot.sound] -/
#guard_msgs (whitespace := lax) in #print axioms Records.C132_self

/-- info: 'Records.C132_unlike' depends on axioms: [propext] -/
#guard_msgs (whitespace := lax) in #print axioms Records.C132_unlike

/-- info: 'Records.Toy.Cmp.C132_refuted' depends on axioms: [propext, Classical.choice, Quot.sound] -/
#guard_msgs (whitespace := lax) in #print axioms Records.Toy.Cmp.C132_refuted

/-- info: 'Records.Toy.Cmp.C132_refuted_deepcopy' depends on axioms: [propext, Classical.choice, Quot.sound] -/
#guard_msgs (whitespace := lax) in #print axioms Records.Toy.Cmp.C132_refuted_deepcopy
