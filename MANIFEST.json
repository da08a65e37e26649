{
 "claims": [
  {
   "property": "C01",
   "status": "proved",
   "theorems": [
    "DS.C01_action_classification"
   ],
   "note": "C01_action_classification: `action` is create / delete / update / None exactly in the four stated situations."
  },
  {
   "property": "C02",
   "status": "proved",
   "theorems": [
    "DS.C02_has_diffs",
    "DS.C02_element_has_diffs"
   ],
   "note": "C02_has_diffs: `has_diffs()` of a diff is true exactly when some element at any depth has an action, equivalently when `summary()` counts a create, update or delete, equivalently when `dict()` is not empty. C02_element_has_diffs: element level: `has_diffs(include_children=False)` is \"the own action is not None\"; `has_diffs()` is \"some action in the subtree is not None\"."
  },
  {
   "property": "C03",
   "status": "proved",
   "theorems": [
    "DS.C03_attrs_diffs_exact"
   ],
   "note": "C03_attrs_diffs_exact: Entries of `get_attrs_diffs()`: for a two-sided element both \"+\" and \"-\" are present and hold exactly the shared attributes that differ, with the source's resp. destination's value; for a one-sided element the one entry is that side's complete attribute dictionary."
  },
  {
   "property": "C04",
   "status": "proved",
   "theorems": [
    "DS.C04_update_sufficient_minimal"
   ],
   "note": "C04_update_sufficient_minimal: Setting the \"+\" attributes of an update element on the destination object raises nothing, gives every differing attribute the source's value, leaves every other field, the child lists and the flags as they were; if `==` is reflexive on the source's values, the element recomputed with the new object has no action; and leaving out any one entry of \"+\" still leaves an update."
  },
  {
   "property": "C05",
   "status": "proved",
   "theorems": [
    "DS.C05_summary_totals"
   ],
   "note": "C05_summary_totals: The four counts of `summary()` add up to `len(diff)` for every Diff subclass, and are the numbers of elements in the tree with that action when the order methods yield each child once."
  },
  {
   "property": "C06",
   "status": "proved",
   "theorems": [
    "DS.C06_skip_count",
    "DS.Ex.C06_hidden_pair_counts_once",
    "DS.C06_skip_exact",
    "DS.C06_skip_determined",
    "DS.C06_nothing_skipped"
   ],
   "note": "skip is characterised exactly (C06_skip_exact), as a function of the contents (C06_skip_determined). That it counts models, as one may expect, is false: a matched pair that is excluded counts once (C06_hidden_pair_counts_once). C06_skip_count: (what `skip` counts is `C06_skip_exact`) For a diff computed by `diff_from`, `skip` is never negative and completes the other counters to the number of models processed. C06_hidden_pair_counts_once: `skip` is not a number of models: an excluded pair counts as one although two models were visited. Here the models are two sites and the device `a` on both sides, flagged IGNORE; four models were visited, two are represented, but `skip` is 1. C06_skip_exact: For a diff computed by `diff_from`, `skip` is exactly: the number of objects of the types (`ts`) that are top level in only one of the adapters, plus what the places at the top add (`PassedOver`) - one for every visit to an excluded place, the children of types only one of two compared objects declares, and repetitions in child lists. C06_skip_determined: What a place adds to `skip` is determined by the contents of the adapters. C06_nothing_skipped: When no flag excludes anything, the adapters have the same top-level types, objects with the same type and unique id declare the same child types and no object lists a child twice, nothing is skipped."
  },
  {
   "property": "C07",
   "status": "proved",
   "theorems": [
    "DS.C07_order_methods_only_reorder"
   ],
   "note": "C07_order_methods_only_reorder: Two Diff subclasses whose order methods only reorder agree on `len()`, `summary()` and `has_diffs()` of the same children, and `get_children()` yields every child exactly once."
  },
  {
   "property": "C08",
   "status": "proved",
   "theorems": [
    "DS.C08_add",
    "DS.C08_unique_names"
   ],
   "note": "C08_add: `Diff.add` succeeds exactly when no element has the same type and name, appending the element; otherwise it raises ObjectAlreadyExists and the diff is unchanged. C08_unique_names: No sequence of `add` calls on an empty diff (whether or not some of them raised) leads to two elements with the same type and name."
  },
  {
   "property": "C09",
   "status": "proved",
   "theorems": [
    "DS.C09_element_order",
    "DS.C09_sorting_deterministic",
    "DS.Ex.C09_not_total",
    "DS.C09_equality",
    "DS.C09_operators",
    "DS.Ex.C09_both_greater"
   ],
   "note": "Strict order by (type, name), determinism of sorting, what == compares, all operators between elements with different type or name. C09_not_total and C09_both_greater record that the operators do not fit together when only attributes differ. C09_element_order: `a < b` on elements is the lexicographic order of (type, name); it is a strict order, total on elements with different (type, name). C09_sorting_deterministic: Sorting is deterministic: two orderings of the same elements that are both ascending by `<` are the same list. C09_not_total: negative part: `<` and `==` are not a total order on elements. Two elements with the same type and name and different attributes are neither `<`, `>`-reversed nor `==`, so `a <= b` and `b <= a` are both false. C09_equality: `a == b` compares the type, the name, the keys and the attributes on both sides, and nothing else (not the children). C09_operators: Between elements with different type or name, each of the comparison operators is that of the lexicographic order of (type, name). C09_both_greater: negative part: each of two elements may be `>` the other."
  },
  {
   "property": "C10",
   "status": "proved",
   "theorems": [
    "DS.C10_diff_describes_contents",
    "DS.C10_top_exact",
    "DS.C10_all_depths"
   ],
   "note": "C10_diff_describes_contents: Whatever the flags, a returned diff describes exactly the visible places: one element per place at the top, and recursively one element per place below each of them. C10_top_exact: Without flags, at the top: for a type that is top level in both adapters, the elements of that type stand, one for one and without repetition, for the unique ids stored in either adapter, and carry exactly the attributes of the stored objects; no element of another type occurs. C10_all_depths: Below the top, the same holds: an element stands for a compared place exactly when that place is visible, at every depth."
  },
  {
   "property": "C11",
   "status": "proved",
   "theorems": [
    "DS.C11_diff_changes_nothing"
   ],
   "note": "C11_diff_changes_nothing: Computing a diff, whether it returns or raises, leaves the contents of every adapter (local or Redis), every existing object and what user code can see of it, and all Redis data as they were; no CRUD method is called."
  },
  {
   "property": "C12",
   "status": "proved",
   "theorems": [
    "DS.C12_no_diffs_iff_agree",
    "DS.C12_no_diffs_same_ids",
    "DS.C12_self_diff"
   ],
   "note": "C12_no_diffs_iff_agree: A returned diff has no diffs exactly when every compared, not excluded place holds objects on both sides that agree on all shared attributes. C12_no_diffs_same_ids: Without flags a diff without diffs means that both adapters store the same unique ids for every common top-level type, and at every compared place the same children are listed on both sides. C12_self_diff: An adapter against itself, or against one with equal contents, has no diffs (for values on which `==` is reflexive)."
  },
  {
   "property": "C13",
   "status": "proved",
   "theorems": [
    "DS.C13_returns_both_ways",
    "DS.C13_mirrored",
    "DS.C13_summary_mirrored"
   ],
   "note": "C13_returns_both_ways: `diff_from` returns in one direction exactly when it does in the other (for values on which `==` is an equivalence). C13_mirrored: `a.diff_to(b)` mirrors `a.diff_from(b)`: swapping the adapters (and, if used, the SKIP_UNMATCHED flags) mirrors the diff: the elements are the same up to order, at every depth, with the two sides exchanged. C13_summary_mirrored: Hence `has_diffs()` is the same in both directions, and `summary()` has create and delete exchanged and the same update and no-change."
  },
  {
   "property": "C14",
   "status": "proved",
   "theorems": [
    "DS.C14_no_unmatched",
    "DS.C14_flags_prune"
   ],
   "note": "C14_no_unmatched: With SKIP_UNMATCHED_SRC no element at any depth of a returned diff has action create; with SKIP_UNMATCHED_DST none has action delete. C14_flags_prune: Adding SKIP_UNMATCHED flags to those of a diff that returns gives a diff that returns too, and it is the first one with the one-sided elements of the skipped sides, and what is below them, removed."
  },
  {
   "property": "C15",
   "status": "proved",
   "theorems": [
    "DS.C15_model_flags",
    "DS.C15_no_element_at_top",
    "DS.C15_no_element_below"
   ],
   "note": "C15_model_flags: Every element of a returned diff stands for a place whose objects are not flagged IGNORE, nor SKIP_UNMATCHED_SRC / SKIP_UNMATCHED_DST while unmatched on that side; and it is reached from the top through such places only (`Compared`). C15_no_element_at_top: An object flagged so as to be excluded has no element at the top of the diff: no element there has its type and shortname (among compared objects of that type, shortnames being distinct). C15_no_element_below: The same below an element: an excluded child has no element among the element's children."
  },
  {
   "property": "C16",
   "status": "proved",
   "theorems": [
    "DS.C16_returned_means_resolved",
    "DS.C16_dangling_raises"
   ],
   "note": "C16_returned_means_resolved: Whenever `diff_from` returns, every child id listed, for a compared child type, by an object at a place in the diff is the id of a stored object. C16_dangling_raises: If an object that takes part lists a child that is not stored, `diff_from` raises; and the exception is `ObjectNotFound` unless there is another problem of one of the listed kinds."
  },
  {
   "property": "C17",
   "status": "proved",
   "theorems": [
    "DS.C17_only_like_objects",
    "DS.C17_unlike_raises"
   ],
   "note": "C17_only_like_objects: Whenever `diff_from` returns, the two objects at every compared place (shown in the diff or excluded) have equal type, shortname and identifiers. C17_unlike_raises: A pair that shares a unique id but differs in type, shortname or identifiers makes `diff_from` raise; and `ValueError` is raised only because of such a pair."
  },
  {
   "property": "C18",
   "status": "proved",
   "theorems": [
    "DS.C18_diff_progress",
    "DS.C18_current_within_total"
   ],
   "note": "C18_diff_progress: (all but the last clause, which is `C18_current_within_total`) The callbacks of a diff carry strictly increasing positive `current` values and one constant `total`, the number of objects in the two stores as `count` gives it; when the diff returns, the last value is the number of models processed. C18_current_within_total: last clause. When every object of both adapters is listed exactly once, `current` never exceeds `total`, whether the diff returns or raises. (The id of a Redis store is a plain name: other ids are read as patterns.)"
  },
  {
   "property": "C19",
   "status": "proved",
   "theorems": [
    "DS.C19_bounded_depth",
    "DS.C19_acyclic_terminates",
    "DS.C19_cycle_never_returns"
   ],
   "note": "C19_bounded_depth: If child chains have at most `H` steps in both adapters, a recursion limit of `H + 2` calls suffices: the diff does not raise `RecursionError`. C19_acyclic_terminates: If no object of either adapter is its own transitive child, the diff does not raise `RecursionError` once the limit exceeds the number of stored objects of each by two (`Ls`, `Ld` list the stored keys). C19_cycle_never_returns: If following child lists from a compared place leads back to it, no recursion limit suffices: `diff_from` raises for every limit, and what it raises is `RecursionError` unless there is another problem."
  },
  {
   "property": "C20",
   "status": "proved",
   "theorems": [
    "DS.C20_top_types",
    "DS.C20_sync_types"
   ],
   "note": "C20_top_types: Every element at the top of a diff is of a type that is top level in both adapters. C20_sync_types: Every call of a sync is about an object of a type that is top level in both adapters, or one that an object listed in one of the adapters' child lists."
  },
  {
   "property": "C21",
   "status": "proved",
   "theorems": [
    "DS.C21_sync_converges",
    "DS.C21_sync_to_converges",
    "DS.C21_after_any_history"
   ],
   "note": "C21_sync_converges: A sync in which all calls succeed returns, and afterwards source and destination agree at every place that is compared: `diff_from` with the same flags returns and reports no diffs. C21_sync_to_converges: The same of `sync_to`: the target ends up like the adapter that is synced, which stays as it was, and `diff_to` reports nothing. C21_after_any_history: Whatever happened before, a sync between two adapters that declare the same models and hold alike forests converges if all calls of user code succeed: it returns, leaves the source as it was, and no diff is left."
  },
  {
   "property": "C22",
   "status": "proved",
   "theorems": [
    "DS.C22_second_sync_idle"
   ],
   "note": "C22_second_sync_idle: After a converged sync, repeating it (with whatever hooks) returns, makes no call, does not invoke `sync_complete`, and leaves the contents of every adapter as they are."
  },
  {
   "property": "C23",
   "status": "proved",
   "theorems": [
    "DS.C23_only_diffed_objects_change",
    "DS.C23_other_adapters_untouched"
   ],
   "note": "C23_only_diffed_objects_change: Whatever the user's methods do, and wherever the sync stops: when what the destination holds under a type and unique id changes (an object added, removed or altered), then that object occurs in the diff used, or is one of those that go with a successfully deleted object flagged SKIP_CHILDREN_ON_DELETE. C23_other_adapters_untouched: No other adapter changes: neither the source nor any other that uses another store."
  },
  {
   "property": "C24",
   "status": "proved",
   "theorems": [
    "DS.C24_skip_unmatched"
   ],
   "note": "C24_skip_unmatched: With SKIP_UNMATCHED_SRC nothing is added to the destination and nothing is created; with SKIP_UNMATCHED_DST nothing is removed and nothing is deleted; whatever fails."
  },
  {
   "property": "C25",
   "status": "proved",
   "theorems": [
    "DS.C25_create_arguments",
    "DS.C25_update_arguments",
    "DS.C25_delete_target"
   ],
   "note": "C25_create_arguments: A create call gets the identifiers and attributes of an object that the source stores. C25_update_arguments: An update call is made on an object that both sides store, and gets exactly the attributes that both have and that differ, with the source's values. C25_delete_target: A delete call is made on an object that the destination stores."
  },
  {
   "property": "C26",
   "status": "proved",
   "theorems": [
    "DS.C26_call_order",
    "DS.C26_order_unique"
   ],
   "note": "C26_call_order: When a sync returns and no element is left without an object, its calls are exactly those of the documented order. C26_order_unique: The documented order is one: there are no two plans for the same elements."
  },
  {
   "property": "C27",
   "status": "proved",
   "theorems": [
    "DS.C27_one_call_per_element",
    "DS.C27_number_of_calls"
   ],
   "note": "C27_one_call_per_element: The calls of a sync, in order, are calls prescribed by elements of the diff, each element being used at most once; whatever the calls return or raise. C27_number_of_calls: In particular there are no more calls than elements."
  },
  {
   "property": "C28",
   "status": "proved",
   "theorems": [
    "DS.C28_no_calls_below",
    "DS.C28_only_success_changes_contents",
    "DS.C28_failed_create_adds_nothing",
    "DS.C28_failed_delete_removes_nothing"
   ],
   "note": "C28_no_calls_below: When the call about an element does not return an object (it returns None or raises), no call is made about any element below it; except for a deleted object flagged NATURAL_DELETION_ORDER, whose children come first. C28_only_success_changes_contents: An object is added only by a create call for it that returns an object, and is removed only by a delete call on it that returns an object, or along with an object flagged SKIP_CHILDREN_ON_DELETE whose delete call returned an object. C28_failed_create_adds_nothing: A failed create adds nothing: when the create call about an object that is not stored does not return an object, the object is not stored afterwards. C28_failed_delete_removes_nothing: A failed delete removes nothing: when the delete call on an object does not return an object, the object is still stored afterwards, unless it goes along with another, successfully deleted object flagged SKIP_CHILDREN_ON_DELETE."
  },
  {
   "property": "C29",
   "status": "proved",
   "theorems": [
    "DS.C29_first_failure_aborts",
    "DS.C29_calls_are_a_prefix"
   ],
   "note": "C29_first_failure_aborts: Without CONTINUE_ON_FAILURE, an ObjectCrudException raised by a call is what the sync raises, no call comes after it, and `sync_complete` is not invoked. C29_calls_are_a_prefix: The calls made are a prefix of those of the documented order, however the sync ends (as long as no earlier element was left without an object, so that what is below it was passed over)."
  },
  {
   "property": "C30",
   "status": "proved",
   "theorems": [
    "DS.C30_no_crud_exception",
    "DS.C30_everything_attempted"
   ],
   "note": "C30_no_crud_exception: With CONTINUE_ON_FAILURE no ObjectCrudException escapes from a sync. C30_everything_attempted: When a sync returns, something was attempted for every element with an action, except those below an element that was left without an object (or below a deleted object flagged SKIP_CHILDREN_ON_DELETE)."
  },
  {
   "property": "C31",
   "status": "proved",
   "theorems": [
    "DS.C31_failures_do_not_matter"
   ],
   "note": "C31_failures_do_not_matter: After any number of syncs from the same source, with any outcomes of the user's code (refused calls, exceptions, aborted syncs), any flags and diff classes, a sync in which all calls succeed converges."
  },
  {
   "property": "C32",
   "status": "proved",
   "theorems": [
    "DS.C32_sync_complete",
    "DS.C32_nothing_to_do"
   ],
   "note": "C32_sync_complete: `sync_complete` is invoked exactly once, after everything else, when the sync returns and something was attempted; otherwise it is not invoked. C32_nothing_to_do: A sync whose diff has nothing to do attempts nothing."
  },
  {
   "property": "C33",
   "status": "proved",
   "theorems": [
    "DS.C33_progress"
   ],
   "note": "C33_progress: The progress callback of a sync is called with `current` = 1, 2, …, k and `total` = `len(diff)`; k is at most the total, and equal to it when the sync returns, no element is left without an object and none to be deleted is flagged SKIP_CHILDREN_ON_DELETE."
  },
  {
   "property": "C34",
   "status": "proved",
   "theorems": [
    "DS.C34_stale_refused",
    "DS.C34_stale_raises",
    "DS.C34_crud_error_source"
   ],
   "note": "C34_stale_refused: An element whose action does not fit the destination (an object to be created exists, one to be updated or deleted does not) is refused: the user's method is not called for it, and what the destination stores under its key stays as it is. (Unless, for an object to be created, the one that exists is removed along with an object flagged SKIP_CHILDREN_ON_DELETE.) C34_stale_raises: Without CONTINUE_ON_FAILURE such an element makes the sync raise, unless it has no turn because an element above it is left without an object or deleted with its children. C34_crud_error_source: An ObjectCrudException that a sync raises was raised by one of the user's methods, or it is the one for refusing an element whose action does not fit the destination."
  },
  {
   "property": "C35",
   "status": "partial",
   "theorems": [
    "DS.C35_not_recomputed",
    "DS.C35_not_recomputed_open",
    "DS.Ex.C35_mixed_deletion",
    "DS.C35_class_mismatch",
    "DS.C35_supplied_diff_applied_partial",
    "DS.Ex.C35_empty_diff_ignored"
   ],
   "note": "That nothing is compared and that the supplied diff is what is returned is proved for every non-empty diff, in every state and for any user code (C35_not_recomputed, C35_not_recomputed_open). That every call is one prescribed by the diff is proved for diffs without attribute values outside the declared attributes and with only deletions below deletions (GoodDiff, true of every computed diff), and false without: C35_mixed_deletion. False for empty diffs: C35_empty_diff_ignored. C35_not_recomputed: With a diff supplied that is not empty no comparison takes place, and a sync that returns, returns that diff: for every such diff, in every state, whatever the user's methods decide. C35_not_recomputed_open: The same when the user's methods may do anything to the adapters. C35_mixed_deletion: where it fails: the diff deletes the site, which is flagged NATURAL_DELETION_ORDER, and updates its device. The site is asked to update itself instead, for that is the action of the last child, and it stays; the device is updated twice. C35_class_mismatch: A supplied diff that is not an instance of `diff_class` is refused, and nothing happens. (An empty one is not looked at, `C35_empty_diff_ignored`.) C35_supplied_diff_applied_partial: A supplied diff that is not empty is what is applied: no comparison takes place, every call is one prescribed by an element of it, and it is what the sync returns. C35_empty_diff_ignored: where it fails: an empty diff that is supplied is neither checked (its class is no subclass of `diff_class`) nor used: a diff is computed and applied."
  },
  {
   "property": "C36",
   "status": "proved",
   "theorems": [
    "DS.C36_local_store_is_map",
    "DS.C36_get_by_identifiers"
   ],
   "note": "C36_local_store_is_map: Every sequence of `add`, `update`, `remove`, `get`, `get_or_none` and `get_all` calls on any number of adapters with local stores, going on after exceptions, behaves like the same sequence on maps from (model name, unique id) to objects: same results, same exceptions, same final contents. C36_get_by_identifiers: An object can be fetched by its model class and its identifiers just as well as by model name and unique id."
  },
  {
   "property": "C37",
   "status": "partial",
   "theorems": [
    "DS.C37_count_model_local",
    "DS.C37_count_model_redis",
    "DS.C37_len_is_count",
    "DS.C37_count_model_local_partial",
    "DS.C37_count_model_redis_partial",
    "DS.C37_count_is_sum_local",
    "DS.C37_count_is_sum_redis",
    "DS.Ex.C37_empty_name_counts_all",
    "DS.Ex.C37_redis_count_lowercases"
   ],
   "note": "count() as the sum over all models and len() are proved for both stores. count(model) = len(get_all(model)) as stated is false for the empty name (local, C37_empty_name_counts_all) and for names with upper-case letters (Redis, C37_redis_count_lowercases); what count(model) is in all cases is proved exactly (C37_count_model_local, C37_count_model_redis). C37_count_model_local: In a local store, exactly: `count(model)` is the number of objects `get_all(model)` returns, for every model name and class but the empty name, for which it is `count()`. C37_count_model_redis: In a Redis store, exactly: `count(model)` is the number of objects that `get_all` returns for the name of the model in lower case. C37_len_is_count: `len(adapter)` equals `count()`. C37_count_model_local_partial: partial: in a local store `count(model)` is the number of objects `get_all(model)` returns. (Not for the empty model name: `C37_empty_name_counts_all`.) C37_count_model_redis_partial: partial: in a Redis store `count(model)` is the number of objects `get_all(model)` returns, for a lower-case model name. (Not otherwise: `C37_redis_count_lowercases`.) C37_count_is_sum_local: `count()` is the sum of the numbers of objects of all models, in a local store. C37_count_is_sum_redis: `count()` is the sum of the numbers of objects of all models, in a Redis store. C37_empty_name_counts_all: fails for the empty model name on a local store: `count(\"\")` counts everything, `get_all(\"\")` returns nothing. C37_redis_count_lowercases: fails on a Redis store for a model name with upper-case letters: `count` lower-cases it, `get_all` does not."
  },
  {
   "property": "C38",
   "status": "proved",
   "theorems": [
    "DS.C38_get_by_uids"
   ],
   "note": "C38_get_by_uids: `get_by_uids` returns one object per given id, in order, each being the one stored under that id — or raises `ObjectNotFound`, exactly if some id is not stored. It changes nothing."
  },
  {
   "property": "C39",
   "status": "partial",
   "theorems": [
    "DS.C39_redis_get_or_instantiate",
    "DS.C39_redis_get_or_add",
    "DS.C39_redis_update_or_instantiate_partial",
    "DS.C39_redis_update_or_add_partial",
    "DS.Ex.C39_parsed_identifier",
    "DS.C39_get_or_instantiate",
    "DS.C39_get_or_add",
    "DS.C39_update_or_instantiate_partial",
    "DS.C39_update_or_add_partial",
    "DS.Ex.C39_redis_update_lost",
    "DS.C39_unknown_attribute"
   ],
   "note": "Proved for local stores, and for Redis stores but for one point: there the update variants leave the stored object as it was when there is one (C39_redis_update_or_instantiate_partial, C39_redis_update_or_add_partial prove that, and what they return; witness C39_redis_update_lost). C39_redis_get_or_instantiate: On a Redis store `get_or_instantiate` returns a copy of the stored object, which stays as it is, or adds and returns an instance made of the given identifiers and attributes; its failures are those on a local store (`C39_get_or_instantiate`), and then nothing changes. C39_redis_get_or_add: On a Redis store `get_or_add_model_instance` returns a copy of the stored object with the same model and id, which stays as it is, or stores the given object and returns it. It never fails. C39_redis_update_or_instantiate_partial: partial (on a Redis store the new values of an existing object are not stored): `update_or_instantiate` is like `get_or_instantiate`, and the returned object has the given attribute values; but when one was stored already, what is stored stays as it was. Hypotheses as in `C39_update_or_instantiate_partial`. C39_redis_update_or_add_partial: partial (on a Redis store the new values of an existing object are not stored): `update_or_add_model_instance` is like `get_or_add_model_instance`, and the returned object has the attribute values of the given one; but when one was stored already, what is stored stays as it was. Hypothesis: those attributes are fields of the object already stored, if any. C39_parsed_identifier: The same of `get_or_instantiate`: the second call with the same identifiers finds nothing, makes an instance, and cannot add it. C39_get_or_instantiate: `get_or_instantiate`: an existing object is returned unchanged; otherwise an instance made of the given identifiers and attributes is added and returned. The only failures: an identifier is missing (`KeyError`), a field is given both as identifier and as attribute (`TypeError`), or a required field is not given or a value refused (`ValidationError`); then nothing changes. The class is supposed to leave the identifiers as they read (if not: `C39_parsed_identifier`). C39_get_or_add: `get_or_add_model_instance`: an existing object with the same model and id is returned unchanged; otherwise the given object is added and returned. It never fails. C39_update_or_instantiate_partial: partial (local stores only; false on Redis: `C39_redis_update_lost`): `update_or_instantiate` is like `get_or_instantiate`, and afterwards the returned object has the given attribute values, and is otherwise as before (or as instantiated). Hypotheses: the attributes are a dictionary of fields, both of the class and of the object already stored, if any; no field is given twice; all required fields are given, no value is refused; the class leaves the identifiers as they read. C39_update_or_add_partial: partial (local stores only; see `C39_redis_update_lost`): `update_or_add_model_instance` is like `get_or_add_model_instance`, and afterwards the returned object has the attribute values of the given one. Hypothesis: those attributes are fields of the object already stored, if any. C39_redis_update_lost: fails on a Redis store: `update_or_instantiate` sets the attributes of the instance it returns, but what is stored keeps the old ones. C39_unknown_attribute: If one of the attributes given to `update_or_instantiate` is not a field, it raises `AttributeError`; but the object is in the store all the same, a new one if there was none, and has the values of the attributes given before that one."
  },
  {
   "property": "C40",
   "status": "proved",
   "theorems": [
    "DS.C40_remove_children_local",
    "DS.C40_remove_children_redis",
    "DS.C40_remove_only"
   ],
   "note": "C40_remove_children_local: On a local store `remove(obj, remove_children=True)` of a stored object always returns, if the recursion limit is at least the number of stored objects, whatever the child lists contain (missing ids, cycles). It removes exactly the objects reachable from `obj` through child lists; everything else, in this and all other stores, is as before. C40_remove_children_redis: The same on a Redis store, for an object obtained from it (or equal to the stored one). C40_remove_only: `remove(obj)` without `remove_children` removes exactly `obj`; if it is not stored it raises `ObjectNotFound` and removes nothing. (Any recursion limit `n + 1` will do.)"
  },
  {
   "property": "C41",
   "status": "proved",
   "theorems": [
    "DS.C41_redis_store_is_map",
    "DS.C41_isolated",
    "DS.Ex.C41_pattern_store_id",
    "DS.C41_add_used_key"
   ],
   "note": "C41_redis_store_is_map: Every sequence of operations on any number of adapters with Redis stores sharing one server, going on after exceptions, behaves like the same sequence on maps from (store id, model name, unique id) to object contents: same results, same exceptions, same final contents; in particular an operation on one store never affects another. (Adding an object under a used key is a no-op if it has the same data.) Store ids and model names must be free of `:`. C41_isolated: Stores with different ids are isolated: operations on stores other than `sid` leave what `sid` holds unchanged. C41_pattern_store_id: needs plain store ids: the id is put into a `SCAN` pattern as it is, so a store with the id `a*` returns the objects of the store `ab`, and a store with the id `[a]` does not find its own. C41_add_used_key: Adding an object to a Redis store under a key that is in use changes nothing; it succeeds exactly if the object that the store holds has the same data — equal values, child lists and flags — and else raises `ObjectAlreadyExists`."
  },
  {
   "property": "C42",
   "status": "partial",
   "theorems": [
    "DS.Ex.C42_redis_changes_lost",
    "DS.C42_redis_adds_and_removes_partial",
    "DS.C42_updates_not_persisted",
    "DS.C42_redis_contents_partial",
    "DS.Ex.C42_second_sync_raises"
   ],
   "note": "False as stated: C42_updates_not_persisted (in general: what is updated, and every changed child list, is stored as before), with witnesses C42_redis_changes_lost and C42_second_sync_raises. What does hold is proved: a sync into a Redis store only adds and removes (C42_redis_adds_and_removes_partial), and when all calls succeed exactly the created objects are there and the deleted ones gone (C42_redis_contents_partial). C91 says exactly what the next diff shows, and exactly when such a sync converges. C42_redis_changes_lost: where it fails: the sync succeeds, but the new value of the updated device and the new child list of the site are not in the store. C42_redis_adds_and_removes_partial: (not convergence: updates and child lists are not persisted, `C42_updates_not_persisted`) Whatever the calls do and wherever a sync into a Redis store stops, it only adds and removes: what is stored afterwards was stored before exactly like that (same values, same child lists), or is what a successful `create` for an element of the diff made; what was stored before is still there like that, unless an element of the diff deleted it or it went along with a deleted object. C42_updates_not_persisted: where it fails in general: what a sync into a Redis store updates is stored afterwards exactly as before, whatever the calls do (unless it went along with a deleted object); so is every object that the diff neither creates nor deletes, its child lists included. C42_redis_contents_partial: (for creations and deletions; updates and child lists are not persisted) When a sync into a Redis store returns, every element had its object and all calls succeeded, then the store holds: for every element to create the object asked for, nothing for every element to delete, and everything else as before. (No object flagged SKIP_CHILDREN_ON_DELETE is deleted.) C42_second_sync_raises: where it fails: the device that the first sync created is not in the stored child list of its site, so a second sync would create it again, is refused, and raises."
  },
  {
   "property": "C43",
   "status": "partial",
   "theorems": [
    "DS.C43_unique_ids_partial",
    "DS.C43_get_by_dict_or_uid",
    "DS.Ex.C43_not_injective"
   ],
   "note": "Injectivity proved for single identifiers and for strings without '__' that do not end in '_'; refuted in general (C43_not_injective). Lookup by dict and by unique id proved equal. C43_unique_ids_partial: **C43 (partial)** For classes with one identifier, and otherwise for identifier values whose strings do not contain `\"__\"` nor end in `\"_\"` (`SafeId`), two objects of one class have the same unique id exactly when all identifiers have the same string form. Missing: arbitrary strings with several identifiers, where it is false (`Ex.C43_not_injective`). C43_get_by_dict_or_uid: Looking an object up by its identifier dictionary and by its unique id string is the same operation, for both stores and whatever is stored. C43_not_injective: negative part: different identifier values, same unique id."
  },
  {
   "property": "C44",
   "status": "proved",
   "theorems": [
    "DS.C44_add_child",
    "DS.C44_no_list",
    "DS.C44_remove_child",
    "DS.C44_remove_undoes_add",
    "DS.C44_no_duplicates"
   ],
   "note": "C44_add_child: `add_child`: exactly one of three outcomes, decided by the declared child types and the list. C44_no_list: An object that lacks the field itself (as `model_construct` can make one) raises `AttributeError` in both methods. C44_remove_child: `remove_child`: likewise. C44_remove_undoes_add: `remove_child` undoes `add_child` exactly. C44_no_duplicates: No sequence of `add_child`/`remove_child` calls, failing or not, puts an id twice into a child list."
  },
  {
   "property": "C45",
   "status": "proved",
   "theorems": [
    "DS.C45_class_validation",
    "DS.C45_ids_attrs_disjoint"
   ],
   "note": "C45_class_validation: A subclass declaration is accepted exactly when the class variables refer to fields (identifiers may be other class attributes) and no field is in two of the three groups; otherwise `AttributeError`. C45_ids_attrs_disjoint: Consequence for instances of an accepted class: `get_identifiers()` and `get_attrs()` never share a key."
  },
  {
   "property": "C46",
   "status": "proved",
   "theorems": [
    "DS.C46_dict_returns_iff",
    "DS.C46_redis_colon_key_error",
    "DS.C46_round_trip",
    "DS.C46_load_into_redis"
   ],
   "note": "C46_dict_returns_iff: Exactly when an export returns: `dict()` of any adapter, with any store in any state, returns or raises `KeyError`; it returns if and only if every object that `get_all` returns for a name is of that type, or of a type whose name comes earlier among the names of `get_all_model_names()`. C46_redis_colon_key_error: Where exporting fails: an adapter with a Redis store that holds an object whose type has a colon in its name cannot be exported, `dict()` raises `KeyError` (the names of `get_all_model_names()` have no colons). C46_round_trip: C46. Exporting an adapter `A` (any store) and loading the export into an adapter `B` of the same class with an empty local store succeeds; afterwards `B` holds exactly the objects of `A`, each with its values, child lists and flags; exporting `B` gives the same entries as the first export; and neither export nor load changed `A`. C46_load_into_redis: C46 for a target whose store is in Redis: the load succeeds and every object is there again."
  },
  {
   "property": "C47",
   "status": "proved",
   "theorems": [
    "DS.C47_get_path",
    "DS.C47_set_key",
    "DS.C47_tree_traversal"
   ],
   "note": "C47_get_path: `get_path` returns a path exactly when the key occurs at some depth, and the path exists and ends at the key. C47_set_key: `set_key` never removes a key path, and makes the given path exist. C47_tree_traversal: `get_tree_traversal(as_dict=True)` always succeeds; it contains every model class of the adapter, and every child type at a path directly below an occurrence of its parent."
  },
  {
   "property": "C48",
   "status": "proved",
   "theorems": [
    "DS.C48_set_clear",
    "DS.C48_named_flags"
   ],
   "note": "C48_set_clear: Setting / clearing the flag of bit `i` sets / clears exactly that flag. C48_named_flags: The declared flags are distinct single bits, and the BOTH flags test true exactly when one of the two does; setting BOTH sets both and no other flag."
  },
  {
   "property": "C49",
   "status": "partial",
   "theorems": [
    "DS.C49_model_names_local",
    "DS.C49_model_names_redis",
    "DS.C49_model_names_local_partial",
    "DS.Ex.C49_phantom_name"
   ],
   "note": "Exact for Redis. For local stores every stored model is listed; the converse is false (C49_phantom_name). C49_model_names_local says exactly which names are listed after any sequence of operations: those of models that any operation was about. C49_model_names_local: In a local store, exactly: after any sequence of operations `get_all_model_names()` has the names it had and those of the models that an operation on this store was about, be it to store, to look up or to remove, and successfully or not. C49_model_names_redis: In a Redis store `get_all_model_names()` is exactly the set of models with a stored object. C49_model_names_local_partial: partial: in a local store every model with a stored object is among `get_all_model_names()`. The converse is false (`C49_phantom_name`): looking up or removing objects leaves names of models without objects. C49_phantom_name: fails on a local store: looking up a model without objects makes it one of the model names."
  },
  {
   "property": "C50",
   "status": "proved",
   "theorems": [
    "DS.C50_natural_deletion_order"
   ],
   "note": "C50_natural_deletion_order: When a deleted object carries NATURAL_DELETION_ORDER (and not SKIP_CHILDREN_ON_DELETE), no call about anything below it in the diff comes after its own delete call; without the flag none comes before."
  },
  {
   "property": "C51",
   "status": "proved",
   "theorems": [
    "DS.C51_no_calls_for_descendants",
    "DS.C51_removes_exactly"
   ],
   "note": "C51_no_calls_for_descendants: Deleting an object flagged SKIP_CHILDREN_ON_DELETE makes one delete call, and none about anything below it in the diff. C51_removes_exactly: The sync of a deleted element whose object is flagged SKIP_CHILDREN_ON_DELETE, in any state, when the delete call returns the object: that object and the objects reachable from it through child lists are removed, and nothing else; no other object changes, except that it is taken out of the child list of the parent."
  },
  {
   "property": "C52",
   "status": "partial",
   "theorems": [
    "DS.C52_protected_partial",
    "DS.Ex.C52_removed_along"
   ],
   "note": "Proved for every run and outcome unless the object is removed along with an ancestor flagged SKIP_CHILDREN_ON_DELETE, where it is false: C52_removed_along. C52_protected_partial: An object of the destination that is flagged IGNORE, or flagged SKIP_UNMATCHED_DST and not stored by the source, is stored and unchanged after a sync, whatever the user's methods do. Proved unless it is removed along with an object flagged SKIP_CHILDREN_ON_DELETE; then it is false (`C52_removed_along`). C52_removed_along: where it fails: the device `c` is flagged IGNORE, but it is removed along with its site, which is flagged SKIP_CHILDREN_ON_DELETE."
  },
  {
   "property": "C53",
   "status": "partial",
   "theorems": [
    "DS.Ex.C53_natural_deletion_misreports",
    "DS.C53_call_is_recorded",
    "DS.C53_record_has_call",
    "DS.C53_record_names",
    "DS.C53_call_is_recorded_partial",
    "DS.C53_record_has_call_partial"
   ],
   "note": "False as stated for one case, and exactly which is proved. There is exactly one record for each attempt, with the right action, level and status, in both directions for every sync (C53_call_is_recorded, C53_record_has_call). The record of a call names the object of the call if and only if the object is not deleted after others below it in the diff (NATURAL_DELETION_ORDER); in that case it names what the record before it names, which is one below (C53_record_names, C53_natural_deletion_misreports). C53_natural_deletion_misreports: where it fails: the site `lax` is flagged NATURAL_DELETION_ORDER, so its device `c` is deleted first; the record that follows the deletion of the site then says that the device was deleted. C53_call_is_recorded: Every create/update/delete call of a sync is followed at once by one outcome record, which carries the action of the call and the status and level of its outcome, unless the call ends the sync by an exception that is not a CRUD exception. The record names the object the call is about, except for one case: when the object is deleted after those below it (NATURAL_DELETION_ORDER), it may name one of those. C53_record_has_call: Conversely every outcome record follows at once a call, which it names unless the object is deleted after those below it, or is about an action that was refused because the object to be created existed, or the one to be updated or deleted did not (no call is made then). So there is exactly one record for each attempt. (Records of level debug are those of unchanged objects, under LOG_UNCHANGED_RECORDS.) C53_record_names: Exactly what the record of a call names, for every sync. If the object is deleted after others below it in the diff (NATURAL_DELETION_ORDER), the record names what the outcome record before it names, which is never the object of the call but one below it. Every other record names the object of the call. C53_call_is_recorded_partial: Every create/update/delete call of a sync is followed at once by one outcome record, which carries the action, the model name and the unique id of the object the call is about, and the status and level of the outcome; unless the call ends the sync by an exception that is not a CRUD exception. Proved for syncs that delete no object flagged NATURAL_DELETION_ORDER; for those it is false (`C53_natural_deletion_misreports`). C53_record_has_call_partial: Conversely every outcome record follows at once the call it is about, or is about an action that was refused because the object to be created existed, or the one to be updated or deleted did not (no call is made then). So there is exactly one record for each attempt. (Records of level debug are those of unchanged objects, under LOG_UNCHANGED_RECORDS.)"
  },
  {
   "property": "C54",
   "status": "proved",
   "theorems": [
    "DS.C54_dict_faithful"
   ],
   "note": "C54_dict_faithful: `Diff.dict()` is a faithful nested rendering: `dict()[type][name]` exists exactly for the children with differences, and holds that child's `get_attrs_diffs()` entries and the same rendering of its children."
  },
  {
   "property": "C55",
   "status": "proved",
   "theorems": [
    "DS.C55_adapter_validation",
    "DS.C55_adapter_refused"
   ],
   "note": "C55_adapter_validation: An adapter class is accepted exactly when every model class is stored under its own type name and every `top_level` entry names a model class. C55_adapter_refused: And a class that is not accepted is refused with `AttributeError`."
  },
  {
   "property": "C56",
   "status": "proved",
   "theorems": [
    "DS.C56_tree_string_lines",
    "DS.C56_tree_string_text",
    "DS.C56_tree_string_keys"
   ],
   "note": "C56_tree_string_lines: `tree_string` draws the root plus exactly one line per key at any depth. C56_tree_string_text: The lines below the root are the pictures of the keys, in order. C56_tree_string_keys: The keys drawn are exactly those that occur, at any depth."
  },
  {
   "property": "C57",
   "status": "proved",
   "theorems": [
    "DS.C57_stored_objects_well_formed",
    "DS.C57_get_all_agrees_with_get",
    "DS.C57_identities_last",
    "DS.C57_fit_for_diffs",
    "DS.C57_fit_for_syncs",
    "DS.C57_fit_for_redis",
    "DS.C57_fit_for_convergence"
   ],
   "note": "C57_stored_objects_well_formed: After any history of calls (creating and changing objects, storing, updating and removing them, reading, diffs, syncs with any user code and any failures, exports and imports, local and Redis stores), whatever an adapter holds under a key is a well-formed instance of the class it declares for that model name and carries that unique id. C57_get_all_agrees_with_get: After any history, `get_all` returns, each once, the very objects that `get` finds. C57_identities_last: An object keeps its class and its unique id for ever, whatever the library does with it. C57_fit_for_diffs: After any history, two adapters whose classes name fields of children alike are fit for the theorems about diffs. C57_fit_for_syncs: After any history, an adapter, whatever its store, is fit for the theorems about syncs. C57_fit_for_redis: After any history, what is under the keys of a Redis store is as the theorems about Redis stores ask. C57_fit_for_convergence: After any history, two adapters that declare the same models and hold alike forests are fit for the theorems about convergence."
  },
  {
   "property": "C58",
   "status": "proved",
   "theorems": [
    "DS.C58_no_diffs",
    "DS.C58_every_difference_shown",
    "DS.C58_element",
    "DS.C58_only_differences_shown"
   ],
   "note": "C58_no_diffs: `str()` of a diff is `(no diffs)` exactly when `has_diffs()` is false. C58_every_difference_shown: Every create, delete and update anywhere in the diff is reported in the text: which side lacks the element, or each differing attribute with both values. C58_element: `str()` of one element is its own report, without a margin, followed by the text of what is different below it, indented by two, if anything is; of an element that neither side has, with nothing different below it, the text ends in `(no diffs)`. C58_only_differences_shown: Nothing else is shown: the text does not depend on elements without differences, on attributes that are equal, nor on the attribute values of elements that only one side has."
  },
  {
   "property": "C59",
   "status": "proved",
   "theorems": [
    "DS.C59_str_reads_only",
    "DS.C59_str_shows_everything",
    "DS.C59_str_fails_only_on_depth",
    "DS.C59_same_contents_same_text",
    "DS.Ex.C59_shared_object_shows_other_adapter"
   ],
   "note": "C59_str_reads_only: `Adapter.str()` changes nothing: no stored object, no store and no server content, and no user code is called. C59_str_shows_everything: The text shows every object that the adapter holds at the top level or, at any depth, as a child; a child that is listed but not stored is reported and does not make `str()` fail. C59_str_fails_only_on_depth: The only way to fail is Python's recursion limit, and it is not reached when the objects are nested less deep than it. C59_same_contents_same_text: The text is determined by the contents: adapters with the same top-level types and the same contents, whatever their stores, have the same text. C59_shared_object_shows_other_adapter: why `Owned` is assumed: an object added to a second adapter shows its children as the first adapter has them, so the text of the second adapter shows an object that it does not hold."
  },
  {
   "property": "C60",
   "status": "proved",
   "theorems": [
    "DS.C60_by_uid",
    "DS.C60_by_identifiers"
   ],
   "note": "C60_by_uid: Looking up by unique id: `get` returns the stored object or raises `ObjectNotFound`, `get_or_none` returns it or `None`; neither raises anything else or changes anything. C60_by_identifiers: Looking up by a dictionary of identifiers. A name that stands for no class is a `ValueError` and a missing identifier a `KeyError`, for `get` and for `get_or_none`, whatever is stored, and nothing changes. Otherwise both do what they do for the unique id that consists of the values of the identifiers; other entries of the dictionary do not matter."
  },
  {
   "property": "C61",
   "status": "proved",
   "theorems": [
    "DS.C61_successful_calls_take_effect",
    "DS.C61_passed_on_updates_take_effect",
    "DS.C61_all_in_effect"
   ],
   "note": "C61_successful_calls_take_effect: Whatever else fails, and wherever the sync stops: what a call that succeeded asked for is there when the sync returns or raises (for `update`, in a store that keeps the objects themselves). Exempt is what was created or updated and then went along with a deleted object flagged SKIP_CHILDREN_ON_DELETE, and the very last call of a sync that raises another exception than those about object handling. C61_passed_on_updates_take_effect: For an `update` it does not matter what the method returns or raises afterwards: once it has passed the new values on to `super().update()`, they are there in the end, and a later sync does not try again. C61_all_in_effect: In particular, when the sync returns or raises an exception about object handling, every call that succeeded is in effect, if no object flagged SKIP_CHILDREN_ON_DELETE is deleted."
  },
  {
   "property": "C62",
   "status": "proved",
   "theorems": [
    "DS.C62_stored_objects_refer_back",
    "DS.C62_got_objects_refer_back",
    "DS.C62_got_by_uids_refer_back",
    "DS.C62_all_objects_refer_back",
    "DS.C62_fit_for_str",
    "DS.C62_removed_objects",
    "DS.Ex.C62_last_removed_object_stays_attached",
    "DS.Ex.C62_removed_elsewhere",
    "DS.Ex.C62_update_does_not_attach"
   ],
   "note": "C62_stored_objects_refer_back: `obj.adapter` of an object in an adapter's local store is an adapter with that store, after any history of a program that minds the adapters of objects: whatever was added, updated, removed, loaded and synced, in any order and with any failures. C62_got_objects_refer_back: The object that `get` returns refers to an adapter with the store it was read from, local or Redis. C62_got_by_uids_refer_back: The objects that `get_by_uids` returns refer to an adapter with the store they were read from. C62_all_objects_refer_back: The objects that `get_all` returns refer to an adapter with the store they were read from. C62_fit_for_str: After such a history an adapter is fit for the theorems about `str()`. C62_removed_objects: `remove(obj)` unsets `obj.adapter`, unless it leaves the adapter empty (an empty adapter counts as false). C62_last_removed_object_stays_attached: The last object of a store still refers to the adapter after it was removed. C62_removed_elsewhere: Why the program has to mind: an object of a local store that is also passed to `remove` of a Redis store loses its adapter, and stays in the local store. C62_update_does_not_attach: `update` of a local store stores an object that has no adapter as it is."
  },
  {
   "property": "C63",
   "status": "proved",
   "theorems": [
    "DS.C63_count",
    "DS.C63_get_all",
    "DS.C63_sees_its_objects",
    "DS.C63_names",
    "DS.Ex.C63_wildcards_see_others",
    "DS.Ex.C63_brackets_see_nothing"
   ],
   "note": "C63_count: `count()` of a Redis store is the number of keys on the server that match the pattern `diffsync:<store id>:*`. C63_get_all: `get_all(model)` of a Redis store returns the values of the keys on the server that match the pattern `diffsync:<store id>:<model>:*`, each once. C63_sees_its_objects: A Redis store sees all its objects: what `get` finds, `get_all` returns too, if the store id and the model name have no brackets and no backslashes (wildcards and colons do no harm to that). C63_names: `get_all_model_names()` of a Redis store are the third parts of the keys on the server that match `diffsync:<store id>:*`, i.e. what is between their second and third colons, each once. C63_wildcards_see_others: A store whose id has wildcards sees objects of other stores as well. C63_brackets_see_nothing: A store whose id has brackets may see none of its objects."
  },
  {
   "property": "C64",
   "status": "proved",
   "theorems": [
    "DS.C64_methods_stay_within",
    "DS.C64_isolated",
    "DS.C64_stores_apart",
    "DS.C64_alone_add",
    "DS.C64_alone_update",
    "DS.C64_alone_get",
    "DS.C64_alone_get_all",
    "DS.C64_alone_get_by_uids",
    "DS.C64_alone_count",
    "DS.C64_alone_model_names",
    "DS.C64_alone_remove"
   ],
   "note": "C64_methods_stay_within: Each method of a Redis store sends commands about keys of that store only. C64_isolated: A client that is the only one to write to its store behaves, in every execution and at every point of it, as if it were alone on the server, and its store has the contents that it would then have. The other clients may be any programs, also ones that read the store. C64_stores_apart: Clients of different stores do not disturb each other: each gets the result that it would get alone. C64_alone_add: Alone on the server, the commands of `add` do what `add` does. C64_alone_update: The same for `update`. C64_alone_get: The same for `get`. C64_alone_get_all: The same for `get_all`. C64_alone_get_by_uids: The same for `get_by_uids`. C64_alone_count: The same for `count`. C64_alone_model_names: The same for `get_all_model_names`. C64_alone_remove: The same for `remove`, with and without `remove_children`."
  },
  {
   "property": "C65",
   "status": "proved",
   "theorems": [
    "DS.C65_get",
    "DS.C65_update",
    "DS.C65_add",
    "DS.C65_remove_item",
    "DS.C65_get_by_uids",
    "DS.C65_get_all",
    "DS.C65_keys_right",
    "DS.C65_got_what_asked",
    "DS.C65_methods_proper",
    "DS.Ex.C65_both_add",
    "DS.Ex.C65_both_remove",
    "DS.Ex.C65_get_all_may_raise"
   ],
   "note": "C65_get: `get` returns what was stored at a moment of the call, or raises `ObjectNotFound` because nothing was. C65_update: `update` stores the object at a moment of the call. C65_add: `add` raises nothing but `ObjectAlreadyExists`, and that only if a different object was stored at a moment of the call; otherwise an equal object was stored at a moment of the call. C65_remove_item: Removing an object succeeds only if there was one at a moment of the call, and leaves none at a later moment; it raises `ObjectNotFound`, and nothing else, if there was none at a moment of the call. C65_get_by_uids: `get_by_uids` returns one object per id, in order, each as it was stored at a moment of the call, or raises `ObjectNotFound` because one of them was missing at a moment. C65_get_all: `get_all` returns only objects of the model, each as it was stored at a moment of the call, and misses no object that was there all the time. It raises `ObjectNotFound`, and nothing else, only if an object that was there vanished. C65_keys_right: Whatever the clients do at the same time, at every moment each object on the server is stored under its own type and unique id. C65_got_what_asked: So `get` returns an object of the type and with the unique id that it was asked for. C65_methods_proper: The methods store objects under their own type and unique id. C65_both_add: `add` is no lock: two clients that add different objects with the same unique id at the same time may both succeed, and one object is lost. C65_both_remove: Two clients that remove the same object at the same time may both succeed. C65_get_all_may_raise: `get_all` may raise `ObjectNotFound` when another client removes an object meanwhile."
  },
  {
   "property": "C66",
   "status": "proved",
   "theorems": [
    "DS.C66_calls",
    "DS.C66_progress",
    "DS.C66_exception",
    "DS.C66_callback",
    "DS.C66_complete",
    "DS.C66_returns",
    "DS.C66_same_sync"
   ],
   "note": "C66_calls: C66. Whatever `create`, `update`, `delete`, the progress callback and `sync_complete` do to the adapters: every call that a sync makes is asked for by an element of the diff, each element gets at most one; if both an object and one below it get a call, either the first came first and returned an object, or it is to be deleted and came second. C66_progress: C66. Whatever user code does, progress is reported as 1, 2, 3, … out of the number of elements of the diff, and never beyond it. C66_exception: C66. An exception that user code raises in a call ends the sync at once, unless it is one of the library's object exceptions and CONTINUE_ON_FAILURE is set: it is what `sync_from` raises, nothing else is called and `sync_complete` is not. C66_callback: C66. A callback that does not return ends the sync at once: the report of progress is the last thing the sync does, and what `sync_from` raises is what the callback raised. C66_complete: C66. `sync_complete` is called at most once, at the very end and only when something was attempted; and if the sync returns and something was attempted, it was called. C66_returns: C66. A sync that returns, returns the diff it was made for, unchanged. With a diff supplied, nothing is compared. C66_same_sync: C66. With user code as the other theorems about syncs suppose it (it decides how each call ends and does not touch the adapters), this is the sync of the other theorems: same result, same stores and objects, same events (but for the recorded ends of calls)."
  },
  {
   "property": "C67",
   "status": "proved",
   "theorems": [
    "DS.C67_reads",
    "DS.C67_writes",
    "DS.C67_remove",
    "DS.C67_load_prefix",
    "DS.C67_load_again",
    "DS.C67_updates_prefix",
    "DS.C67_updates_again",
    "DS.Ex.C67_remove_not_resumable"
   ],
   "note": "C67_reads: Whenever a client is killed during `get`, `get_all`, `get_by_uids`, `count` or `get_all_model_names`, the server's contents are as before. C67_writes: Whenever a client is killed during `add` or `update` of an object or `remove` without children, the server's contents are as before, or the call had ended and they are as after the call. C67_remove: Whenever a client is killed during `remove`, with children or without: the objects that are gone are the object itself and some that are below it, none of them without one that lists it; everything else on the server is as before. C67_load_prefix: A client that is killed while it adds objects one after the other has added the first ones, and none of the others. C67_load_again: Loading objects again, after the first attempt was killed at any time, ends with the same result and the same contents as if the first attempt had not been interrupted. (Values that differ from themselves, as NaN does, are excepted: an object with such a value is refused the second time.) C67_updates_prefix: Killed while it updates objects one after the other, a client has updated the first ones, and none of the others. C67_updates_again: Updating them all again, after the first attempt was killed at any time, leaves the contents that it would have left without interruption. C67_remove_not_resumable: a limit: a removal with children that was killed cannot be completed by calling it again: the object itself is gone, so the call raises `ObjectNotFound`, and children that were still there stay."
  },
  {
   "property": "C68",
   "status": "proved",
   "theorems": [
    "DS.C68_agreement_transitive",
    "DS.C68_no_diffs_transitive",
    "DS.C68_syncs_chain"
   ],
   "note": "C68_agreement_transitive: If `a` and `b` agree at every place and `b` and `c` do, then `a` and `c` do (for values on which `==` is transitive). C68_no_diffs_transitive: No diffs between `a` and `b` and none between `b` and `c`: then there are none between `a` and `c`. C68_syncs_chain: Syncs can be chained: after `b` is synced from `a` and then `c` from `b`, with all calls successful, `a` and `c` agree at every place, and a diff between them that returns reports nothing."
  },
  {
   "property": "C69",
   "status": "proved",
   "theorems": [
    "DS.C69_same_diff",
    "DS.C69_same_counts",
    "DS.C69_returns_alike",
    "DS.C69_load",
    "DS.C69_load_order"
   ],
   "note": "C69_same_diff: Two pairs of adapters with the same contents, in whatever kind of store, whatever order the objects were loaded in and the child lists are in: both diffs have, at every depth, the same elements, up to order. C69_same_counts: `has_diffs()`, `len()`, the four counts of `summary()` and its skip count are then the same. C69_returns_alike: Given the same recursion limit, one diff returns exactly if the other does. C69_load: Loading objects that are new to an adapter, one after the other, never fails, in whatever order and kind of store; the contents are then exactly what was there before and the objects loaded, and those of every other store are as before. C69_load_order: Hence two adapters with the same contents that load the same objects, in any orders and into any kinds of store, have the same contents again."
  },
  {
   "property": "C70",
   "status": "proved",
   "theorems": [
    "DS.C70_others_exact",
    "DS.C70_same_outcome_always",
    "DS.C70_outcome",
    "DS.C70_outcome_to",
    "DS.C70_rest_untouched",
    "DS.C70_same_outcome"
   ],
   "note": "C70_others_exact: Exactly what happens, in a sync in which all calls succeed, to objects of the destination that take no part in the comparison: those below an object that is deleted and flagged SKIP_CHILDREN_ON_DELETE are gone; all others are there, with their class, flags, values and children. C70_same_outcome_always: So two syncs in which all calls succeed, from sources with the same contents into destinations with the same contents and classes, leave the same contents (C70_same_outcome), also when objects go along that take no part. C70_outcome: After a sync in which all calls succeed the contents of the destination are determined by what source and destination held before: objects that take part and are missing in the source are gone, those missing in the destination are there with the source's identifiers and attributes, those of both have the source's values where they differed and are otherwise as they were; objects that take no part are as they were, unless one above them was deleted under SKIP_CHILDREN_ON_DELETE; and every child list has the children of both sides that are there. C70_outcome_to: The same of `sync_to`. C70_rest_untouched: When no object below one flagged SKIP_CHILDREN_ON_DELETE is excluded from diffs by its own flags, all objects that take no part are as they were. C70_same_outcome: Two syncs in which all calls succeed, from sources with the same contents into destinations with the same contents and classes, leave the same contents, whatever the diff classes, the adapters' names, the user's code, the order in which objects were loaded or are listed, the identities of the objects, the recursion limits and the stores of the sources."
  },
  {
   "property": "C71",
   "status": "proved",
   "theorems": [
    "DS.C71_retries",
    "DS.C71_retries_same",
    "DS.C71_source_arrives",
    "DS.C71_whole",
    "DS.C71_retries_whole"
   ],
   "note": "C71_retries: A sync that was tried any number of times, in which calls failed, raised or ended it half-way, and that succeeds in the end, leaves what it would have left had it succeeded at once; but for objects of the destination that the source does not have and that are still there, below an object that an earlier attempt has deleted. Those take part in no further sync. C71_retries_same: When objects missing in the source are not to be deleted, or only objects without children are missing in the source, nothing is left over: the two destinations have the same contents. C71_source_arrives: Whatever failed in earlier attempts, an object of the source that takes part is in the destination after the one that succeeds, and the diff finds no differences among the objects of the source. C71_whole: However often a sync is tried and whatever fails, what is below an object that only the destination has, and that takes along what is below it, is there as a whole with it, or gone as a whole with it. C71_retries_whole: So nothing is left over if all objects with children that only the destination has take along what is below them: a sync that was tried any number of times and succeeds in the end leaves what it would have left had it succeeded at once."
  },
  {
   "property": "C72",
   "status": "proved",
   "theorems": [
    "DS.C72_what_remains",
    "DS.C72_second_sync_converges",
    "DS.C72_second_calls",
    "DS.C72_third_sync_idle",
    "DS.Ex.C72_one_sync_is_not_enough",
    "DS.Ex.C72_parsed_identifier"
   ],
   "note": "C72_what_remains: What a sync in which all calls succeed leaves to do. An object that takes part is then on both sides; it differs in an attribute exactly if the sync has created it and its class has made another value of the source's. C72_second_sync_converges: Two syncs in succession with the same flags, in both of which all calls succeed, converge: `diff_from` then reports no diffs. Nothing is assumed about what the classes of the destination make of attribute values. C72_second_calls: All that the second sync does is to update objects that the first one created: it sets the attributes that their classes altered, to the source's values. C72_third_sync_idle: A third sync makes no call and changes nothing. C72_one_sync_is_not_enough: One sync is not enough: after a sync in which all calls succeed there are diffs; after the second there are none. C72_parsed_identifier: If the class reads an identifier as another value, syncs need not converge: the object is created with another unique id than it is looked for under; the next sync, and the one after it, raise `ObjectAlreadyExists`, after user code has reported success."
  },
  {
   "property": "C73",
   "status": "proved",
   "theorems": [
    "DS.C73_create",
    "DS.C73_update",
    "DS.C73_delete",
    "DS.C73_plain"
   ],
   "note": "C73_create: A create call gets the identifiers and attributes that an object of the source had when the sync started; this object took part in the comparison, and there was none in the destination at its place. With SKIP_UNMATCHED_SRC there is no create call. C73_update: An update call gets exactly the attributes that an object of the source and the one of the destination at its place had with different values when the sync started, with the source's values; there is at least one. C73_delete: For each delete call there was an object of the destination that took part in the comparison, and none in the source at its place. With SKIP_UNMATCHED_DST there is no delete call. C73_plain: All this applies to the sync of `Model.Syncer`, with any adapters and any class of model: where it makes a call, the sync with the same user code in the sense of C66 makes the same call."
  },
  {
   "property": "C74",
   "status": "proved",
   "theorems": [
    "DS.C74_isolated",
    "DS.C74_same_objects",
    "DS.C74_separate",
    "DS.C74_sync",
    "DS.C74_converges",
    "DS.Ex.C74_shared_object_changes_in_both"
   ],
   "note": "C74_isolated: Whatever a program does with other stores, in any order, any number of times and with any failures, an adapter holds what it held. C74_same_objects: Meanwhile a local store holds the very same objects. C74_separate: Two adapters with different stores never come to hold the same object. C74_sync: No sync changes its source, or any adapter but the destination: whatever diff is supplied, if any, and whatever fails. C74_converges: So after any history two adapters with different stores, which declare the same models and hold alike forests, converge. C74_shared_object_changes_in_both: Why the program has to mind: an object that was added to two local stores is updated in both by a call about one of them."
  },
  {
   "property": "C75",
   "status": "proved",
   "theorems": [
    "DS.C75_status_after_call",
    "DS.C75_status_without_call",
    "DS.C75_status_outside_diff"
   ],
   "note": "C75_status_after_call: An object of a local destination store that `create()`, `update()` or `delete()` was called for, and that is in the store when the sync returns or raises, says what that call left: what the user's method set, or SUCCESS if the base method was called, or UNKNOWN - never what an earlier sync left. C75_status_without_call: An object for which no such call was made was there before; its status is what it was, or UNKNOWN if the sync came by. C75_status_outside_diff: An object that the diff has no element for keeps its status, if it is still there."
  },
  {
   "property": "C76",
   "status": "proved",
   "theorems": [
    "DS.C76_text",
    "DS.C76_text_tells_names",
    "DS.C76_new_adapter_empty",
    "DS.C76_given_store",
    "DS.C76_redis_connected",
    "DS.C76_redis_available",
    "DS.C76_redis_refused",
    "DS.C76_port_zero"
   ],
   "note": "C76_text: `str(adapter)` is the type alone if no name was given or the name is the type; otherwise the type and the name in quotes. `repr(adapter)` is the same in angle brackets. C76_text_tells_names: Among adapters of one class, `str()` tells different names apart. C76_new_adapter_empty: A new adapter without a store of its own choice is empty, and no other adapter notices (`sid` is a new store). C76_given_store: An adapter constructed over an existing store changes nothing and has, at once, the contents of every adapter with that store. C76_redis_connected: A Redis store is constructed only if the server answered, at the URL if one was given and at the host otherwise; its keys are those of the given id, or of a new one. C76_redis_available: And it is constructed whenever the server named answers, unless a URL and a host with a port are given together. C76_redis_refused: When it is not: its own `ValueError` exactly if both a URL and a host with a port were given; `ObjectStoreException` if neither was given or the server named did not answer; any other exception comes from the client library. C76_port_zero: The check for a URL and a host given together looks at the port as well: with port 0 both are accepted, and the host is ignored."
  },
  {
   "property": "C77",
   "status": "proved",
   "theorems": [
    "DS.C77_raises_only_user_exceptions",
    "DS.C77_raises_only_user_exceptions_to",
    "DS.C77_returns",
    "DS.C77_nothing_refused",
    "DS.C77_redis_raises_only_user_exceptions",
    "DS.C77_redis_raises_only_user_exceptions_to",
    "DS.C77_redis_returns",
    "DS.C77_redis_nothing_refused"
   ],
   "note": "C77_raises_only_user_exceptions: Between adapters that can be reconciled, a sync that raises passes on what the user's own method raised, and that method's call was the last one; under CONTINUE_ON_FAILURE the exception is none of those announced for failed actions. Whatever the methods do before that, neither the comparison, the recursion, the construction of objects nor the updates of child lists and of the store raise anything. C77_raises_only_user_exceptions_to: The same of `sync_to`. C77_returns: So the sync returns the diff whenever no method raises, or, under CONTINUE_ON_FAILURE, when they raise nothing but the exceptions announced for failed actions, however many of them fail. C77_nothing_refused: And no action is refused: every record of an attempt follows at once the call it is about. C77_redis_raises_only_user_exceptions: A sync into a Redis store, between adapters that can be reconciled, passes on what the user's own method raised and raises nothing else; that method's call was the last one, and under CONTINUE_ON_FAILURE the exception is none of those announced for failed actions. C77_redis_raises_only_user_exceptions_to: The same of `sync_to`. C77_redis_returns: So a sync into a Redis store returns the diff whenever no method raises, or, under CONTINUE_ON_FAILURE, when they raise nothing but the exceptions announced for failed actions. C77_redis_nothing_refused: And no action on a Redis store is refused: every record of an attempt follows at once the call it is about."
  },
  {
   "property": "C78",
   "status": "proved",
   "theorems": [
    "DS.C78_left_to_create",
    "DS.C78_left_to_update",
    "DS.C78_left_to_delete",
    "DS.C78_diff_says_what_to_do",
    "DS.C78_next_diff",
    "DS.C78_left_after_any_tries"
   ],
   "note": "C78_left_to_create: After a sync, however it ends and whatever failed in it: the objects that a comparison with the same flags finds to create are those that were to be created before and for which no create call returned an object. C78_left_to_update: The attributes that a comparison finds to differ are those that differed before, of objects for which no update call passed the new values on to `super().update()`; whether that call then returned `None` or raised something makes no difference. C78_left_to_delete: The objects that a comparison finds to delete are those that were to be deleted before and for which no delete call returned an object, except that what is below an object whose delete call returned one is no longer found: it went along, or is left over unlisted. C78_diff_says_what_to_do: What is to be done is what the computed diff says: its elements to create and to delete are the objects to create and to delete, and its elements to update give the attributes to set. C78_next_diff: So the next diff is the last one without what has been done: after a sync, however it ends, a diff with the same flags has an element to create, to update or to delete for exactly those objects for which the diff before the sync has one and no call of that kind did its work; of the elements to delete, also those below a deleted object have gone. C78_left_after_any_tries: The same of any number of syncs, each ending as it may: what is left to do in the end is what was to be done in the beginning and no call in any of them has done."
  },
  {
   "property": "C79",
   "status": "proved",
   "theorems": [
    "DS.C79_merge",
    "DS.C79_calls",
    "DS.C79_in_sync"
   ],
   "note": "C79_merge: When `b` is synced from `a` with SKIP_UNMATCHED_DST and then `a` from `b` (with or without that flag), and all calls succeed, both syncs return and both adapters hold the union of what they held: every object of `a`, with the values it had in `a`, and every object that only `b` had, as it was in `b`; nothing is lost on either side. C79_calls: Neither sync deletes anything, and the second one, whatever its calls return, only creates: it makes no update call, and creates only objects that `b` had and `a` had not. C79_in_sync: After the two syncs, if the second one compares all objects, diffs that compare all objects return in both directions and report nothing."
  },
  {
   "property": "C80",
   "status": "proved",
   "theorems": [
    "DS.C80_constructor",
    "DS.C80_load_from_dict",
    "DS.C80_update",
    "DS.C80_update_unknown",
    "DS.C80_new_status",
    "DS.C80_load_status"
   ],
   "note": "C80_constructor: A constructor given keyword arguments gives exactly the instance that its class reads from them; if there is none, it raises `ValidationError`. C80_load_from_dict: `load_from_dict` with any data into an adapter with any contents adds one instance for each entry, in order, up to the first entry for which that is not possible: one whose values the class refuses (`ValidationError`), or one whose unique id is taken (`ObjectAlreadyExists`). Nothing that was stored is replaced, what was added stays, and no other adapter is touched. C80_update: `obj.update(attrs)` sets exactly the given attributes, to the values as they are given, and says so in the status; it touches no other object and no store. C80_update_unknown: If one of the attributes is not a field of the class, `obj.update(attrs)` raises `ValueError` with the attributes before it set and the rest, and the status, as they were. C80_new_status: A new object that `get_or_instantiate` or `update_or_instantiate` makes has status `SUCCESS` and no message; on any store. C80_load_status: So have the objects that `load_from_dict` makes, on any store; those that were there keep theirs."
  },
  {
   "property": "C81",
   "status": "proved",
   "theorems": [
    "DS.C81_any_callback",
    "DS.C81_looking_callback",
    "DS.C81_quiet_callback",
    "DS.C81_sync_given",
    "DS.C81_sync",
    "DS.C81_sync_not_begun",
    "DS.C81_sync_quiet"
   ],
   "note": "C81_any_callback: Whatever the callback does, it is called with strictly increasing positive `current` values and one constant `total`, the number of objects in the two stores when the diff began. Every call returned, or the last one raised; in that case the diff raises the same exception, and does nothing more: the callback left the world as it is. If the diff returns, the last value is the number of models processed. C81_looking_callback: A callback that only looks does not influence the diff: with it, the diff makes the same calls and ends as it does without callback, unless a call of the callback raises; then the calls up to that one are made and the diff raises the exception of the callback. In either case the contents of every adapter, every object that existed and the Redis data are as they were. C81_quiet_callback: In particular, a callback that only looks and never raises is as good as none. C81_sync_given: `sync_from(source, diff=d, callback=cb)` is exactly the sync that the claims about arbitrary user code speak of, if `d` has elements. If `d` is empty it is passed over, whatever its class: the diff is computed as without the argument. C81_sync: What `sync_from(source, callback=cb)` without `diff` argument is: the diff is computed with the callback; if that raises, the sync raises the same and nothing more happens; if the diff is empty it is returned, and only the counters of the syncer are reset; otherwise the rest is exactly `sync_from(source, diff=d, callback=cb)` from there, of which the claims about syncs with arbitrary user code speak. C81_sync_not_begun: If a call of the callback raises while `sync_from` computes the diff, no CRUD method has been called; and with a callback that only looks, nothing that was stored has changed. C81_sync_quiet: With a callback that only looks while the diff is computed and does not raise, the diff that `sync_from` applies is the one `diff_from` gives."
  },
  {
   "property": "C82",
   "status": "proved",
   "theorems": [
    "DS.C82_diff",
    "DS.C82_raises",
    "DS.C82_reads_only",
    "DS.C82_sound",
    "DS.C82_undisturbed",
    "DS.C82_steady",
    "DS.C82_alone",
    "DS.Ex.C82_mixed",
    "DS.Ex.C82_torn"
   ],
   "note": "C82_diff: Whatever the other clients do, and in whatever order the server takes the commands: the elements of the diff report, one for one, distinct places at the top; each side of a place is what was stored there at some moment of the diff (nothing, if nothing was), the places below are those that these objects list, with objects that were stored there at some moment, and so on down; nothing that the flags leave in is missing that was there all the time, or that an object listed. C82_raises: And it raises only for a reason: `ObjectNotFound` because an object was there at one moment and not at another, or because an object that was read listed a child that was missing at some moment; the other exceptions for the reasons that a diff has on its own, found in objects that were stored at some moment. C82_reads_only: A diff sends no command that writes, whatever the server answers: it disturbs no other client. C82_sound: If the clients store objects under their own type and unique id only, as the methods of the store do, then this is what is found at every moment. C82_undisturbed: If the two adapters hold the same all the time, then the diff describes what they hold, whatever else happens on the server. C82_steady: An adapter keeps its contents when no client writes to its store, whatever they do to other stores; and one in local memory does so anyway. C82_alone: Alone on the server, the commands of a diff give what `diff_from` gives, for adapters with stores of either kind, and leave the server as it is. C82_mixed: A diff may mix moments: here the other client adds the site `lax` and then changes `d1`; the diff knows of the change, but not of the site. It is what `diff_from` gives for none of the contents that the server had. The hypotheses of `C82_diff` hold. C82_torn: A diff may raise `ObjectNotFound` although the child was there when the parent that lists it was read: another client removes `d2` meanwhile."
  },
  {
   "property": "C83",
   "status": "proved",
   "theorems": [
    "DS.C83_create",
    "DS.C83_update",
    "DS.C83_delete",
    "DS.Ex.C83_mixed"
   ],
   "note": "C83_create: A create call of a sync whose diff was computed while other clients wrote to the source gets the identifiers and attributes of an object that the source stored at some moment of the diff, all of one and the same moment. C83_update: An update call is made on an object that the destination stores, and gets exactly the attributes in which it differs from an object with the same type and unique id that the source stored at some moment of the diff, with the values of that object. C83_delete: A delete call is made on an object that the destination stores, and for a reason: it is a top-level object and the source stored no such object at some moment of the diff; or an object of the destination lists it, which the source stored at some moment without listing it, or which is gone itself in this sense. C83_mixed: A sync with such a diff: `d1` becomes a spine, `d2` and `atl` are created, `old` and `d9` deleted; `lax`, which was added before `d1` was changed, is not created. All the hypotheses of the theorems hold."
  },
  {
   "property": "C84",
   "status": "proved",
   "theorems": [
    "DS.C84_intersection",
    "DS.C84_symmetric_difference",
    "DS.C84_symmetric"
   ],
   "note": "C84_intersection: `intersection(l1, l2)` is `l1` without the strings that are not in `l2`: same order, same repetitions. C84_symmetric_difference: `symmetric_difference(l1, l2)` has exactly the strings that are in one of the lists but not in the other, each once, in ascending order. C84_symmetric: It does not matter in which order the lists are given."
  },
  {
   "property": "C85",
   "status": "proved",
   "theorems": [
    "DS.C85_children",
    "DS.C85_add",
    "DS.C85_distinct",
    "DS.C85_add_attrs",
    "DS.C85_len_summary",
    "DS.C85_has_diffs",
    "DS.C85_tree_iff",
    "DS.C85_cycle",
    "DS.C85_has_diffs_any",
    "DS.C85_str",
    "DS.C85_new",
    "DS.C85_every_tree",
    "DS.C85_add_tree"
   ],
   "note": "C85_children: `get_children()` yields the elements that were added, group by group: the groups in the order in which their first element was added, the elements of a group in the order in which they were added. `groups()` are the types of these elements. C85_add: `add` raises `ObjectAlreadyExists` exactly if an element with the same type and name was added before, and then changes nothing; otherwise it changes no other diff and no element. C85_distinct: So no two elements of a diff have the same type and name, and the one that was there first stays. C85_add_attrs: `add_attrs` replaces the sides that are given and keeps the others; everything else of the element, all other elements and all diffs stay. C85_len_summary: `len` and `summary` of an element that is a tree are those of the tree, if the recursion limit permits its depth; otherwise they raise `RecursionError`. C85_has_diffs: `has_diffs()` of an element that is a tree is that of the tree, if the recursion limit permits its depth. C85_tree_iff: An element is a tree exactly if neither it nor an element beneath it was put beneath itself. C85_cycle: If one was, `len`, `summary` and `str` raise `RecursionError`, whatever the limit. C85_has_diffs_any: `has_diffs()` of any element, a tree or not: `True` only if the element or one beneath it differs itself, `False` exactly if it is a tree that the recursion limit permits and in which none differs; otherwise it raises `RecursionError`. C85_str: `str()` of an element that is a tree is that of the tree, if the recursion limit permits its depth; otherwise it raises `RecursionError`. C85_new: A new element has the type, name and keys that are given and the names that are given for the sides, otherwise `\"source\"` and `\"dest\"`; it has neither side, and a `child_diff` of its own, which is empty. C85_every_tree: Every tree in which no two siblings have the same type and name can be made by hand, next to whatever objects there are, which do not change; and an element that was made is a tree of this kind or no tree at all. C85_add_tree: `add` to a diff of trees is `add` of the tree."
  },
  {
   "property": "C86",
   "status": "proved",
   "theorems": [
    "DS.C86_alone",
    "DS.C86_killed",
    "DS.C86_adds_and_removes",
    "DS.C86_others",
    "DS.Ex.C86_orphans_stay"
   ],
   "note": "C86_alone: A sync into a Redis store as a sequence of commands, if nothing interrupts it, is the sync: it ends with the same result or exception, memory and contents of the server. C86_killed: A sync into a Redis store that is killed between any two commands leaves the server as a sync does that was not killed, but whose user code gave up at some call (or that ended): the effects of a call are there for all calls before and for none after, except that of the objects that are removed along with one that is flagged SKIP_CHILDREN_ON_DELETE a part may be left. C86_adds_and_removes: Wherever a sync into a Redis store is killed, what is stored afterwards was stored before exactly like that (same values, same child lists), or an element of the diff creates it; what was stored before is still there like that, unless an element of the diff deletes it or it goes along with a deleted object flagged SKIP_CHILDREN_ON_DELETE. C86_others: Other stores on the server, and other keys, are untouched. C86_orphans_stay: a limit: what a sync has left that was killed amid such a removal, another sync does not remove: the devices are listed by no site any more, so no diff mentions them."
  },
  {
   "property": "C87",
   "status": "proved",
   "theorems": [
    "DS.C87_isolated",
    "DS.C87_meanwhile",
    "DS.C87_stores_apart"
   ],
   "note": "C87_isolated: A sync into a Redis store, while no other client of the server writes to that store (nor to the source's store, if that is on the server): whatever the other clients do, and in whatever order the server takes the commands, when the sync ends its result, its client's memory and the contents of these stores are those of a sync that has the server for itself. C87_meanwhile: At every point of such an execution, the contents of these stores are those that a sync leaves that has the server for itself and is killed at some point (so that C86 says what may be there and what may be missing). C87_stores_apart: Any number of syncs at the same time, each into another Redis store, from local sources or from Redis stores that none of them syncs into, while other clients write to none of these stores: each sync ends with the result and with the contents that it would have alone."
  },
  {
   "property": "C88",
   "status": "proved",
   "theorems": [
    "DS.C88_same_store",
    "DS.C88_keys_right",
    "DS.Ex.C88_lost_create"
   ],
   "note": "C88_same_store: Any number of syncs into the same Redis store at the same time, each of which may be killed at any point, while other clients do anything but write to that store: at every time, what is stored under a key of the store was stored there before exactly like that, or is an object, under its own key, that an element of one of the diffs creates, with the values that the element gives; and what was stored before is still there like that, unless an element of one of the diffs deletes it, or it goes along with an object flagged SKIP_CHILDREN_ON_DELETE that an element of one of the diffs deletes. C88_keys_right: And at every time each object on the server is stored under its own type and unique id, without adapter. C88_lost_create: What the theorem does not promise. Two syncs that create the same object with different values: if they take turns, both end without an error, and the object of the first one is lost; if the second one starts when the first one has ended, it raises, although its diff was computed from the same store."
  },
  {
   "property": "C89",
   "status": "proved",
   "theorems": [
    "DS.C89_same_store",
    "DS.C89_source_on_server",
    "DS.C89_returns",
    "DS.C89_isolated",
    "DS.C89_given",
    "DS.Ex.C89_interleaved"
   ],
   "note": "C89_same_store: Any number of clients call `sync_from` on adapters with the same Redis store at the same time, each for a source of its own (in its own memory, or in any store on the server), and each of them may be killed at any point, while the other clients of the server do anything but write to that store. At every time, what is stored under a key of the store was stored there before exactly like that, or is an object, under its own key, made from an object that one of the sources had; and what was stored before is still there like that, unless it is at a place where one of the sources did not keep an object all the time, or it goes along with an object flagged SKIP_CHILDREN_ON_DELETE at such a place. C89_source_on_server: What these theorems assume of a source (`FromJob.Ready`) holds of every source with a store of its own on the server, if at the start that store holds instances of the source's classes, and the clients that do not call `sync_from` store nothing else there, at any time: they may add, change and remove objects in it. C89_returns: The diff that such a call returns reports what was stored at times of the execution: it is a diff as C82 describes it. C89_isolated: And if the other clients do not write to the store, nor to the source's if that is on the server, then the diff describes what the source and the store hold when the call begins, and the call ends with the result, the memory and the contents of the store that a sync with this diff has which has the server for itself; or the diff cannot be computed, for a reason in what they hold, and the store is left as it was. C89_given: With a `diff` argument: an empty diff (one without changes) is ignored, that is the call is the one without the argument; one of another class raises `DiffClassMismatch` before anything is sent to the server; and with any other one, if the other clients do not write to the store, nor to the source's, the call ends with the result (the diff that was passed, or an exception), the memory and the contents of the store of `sync_from` with this diff in a world that has the server for itself. C89_interleaved: What the theorems do not promise, for two calls whose sources differ in the role of a device that the store does not have: if they take turns, both end without an error; if the second one starts when the first one has ended, it raises; and if it has only listed the keys of the store when the first one makes its changes, its diff raises `ObjectNotFound`, because a site that it has listed is gone."
  },
  {
   "property": "C90",
   "status": "proved",
   "theorems": [
    "DS.C90_never_waits",
    "DS.C90_finitely_many",
    "DS.C90_ends",
    "DS.C90_all_end",
    "DS.C90_commands"
   ],
   "note": "C90_never_waits: No client has to wait for another one: in every state that an execution comes to, whatever the other clients have done, have left undone, or are about to do, a client that has not come to its end can take its next step. C90_finitely_many: In an execution without end, each client takes only finitely many steps, whatever the other clients do in between: no client works forever. C90_ends: A client that is not held up forever comes to its end, with a result or an exception, and stays there. C90_all_end: So if only finitely many clients have anything to do, then no execution is without end; and where none of them can go on, all have come to their ends. C90_commands: A lookup, an update and a count are one command; `add` and `remove_item` are at most two; `get_by_uids` is at most one for each unique id, and `get_all` is a `SCAN` and at most one more for each key that it returns. So between the commands of one of these operations, other clients can interfere only once, in `add` and `remove_item`, and in the ones that read several objects."
  },
  {
   "property": "C91",
   "status": "proved",
   "theorems": [
    "DS.C91_goes_through",
    "DS.C91_outcome",
    "DS.C91_next_returns",
    "DS.C91_next_plan",
    "DS.C91_converges_iff"
   ],
   "note": "C91_goes_through: When all calls succeed, a sync into a Redis store returns, and finds the object of every element. C91_outcome: What a sync into a Redis store leaves when it returns, all its calls succeeded, every element had its object and no object that it deleted takes along what is below it: objects that only the destination had are gone; objects that only the source had are there, built from the source's data, but without children; everything else is exactly as it was, child lists and objects that were to be updated included. The source is as it was. C91_next_returns: After such a sync the same diff (with whatever diff class) returns, unless the sync deleted an object below one that the source has: then the child list of that one still has the deleted object, and the diff raises `ObjectNotFound`. C91_next_plan: When the next diff returns, it plans exactly what the first one planned, except for deletions and for creations of objects at the top: the objects to update are to be updated again, with the same attributes, and the objects created below others are to be created again. C91_converges_iff: (and C42, exactly when it holds) Such a sync into a Redis store converges, that is, the next diff returns and shows no differences, if and only if the first diff planned no updates, created objects only at the top and deleted no object below one that the source has."
  },
  {
   "property": "C92",
   "status": "proved",
   "theorems": [
    "DS.C92_validate_accepts",
    "DS.C92_validate_raises",
    "DS.C92_list_refused",
    "DS.C92_list_refused_one",
    "DS.C92_list_compared",
    "DS.C92_ex_type",
    "DS.C92_ex_value",
    "DS.C92_ex_paired"
   ],
   "note": "C92_validate_accepts: `validate_objects_for_diff` accepts a list of pairs exactly when the two objects of every full pair have the same type, the same short name and equal identifiers. C92_validate_raises: Otherwise the first pair that may not be compared decides the exception: `TypeError` if its objects have different types, `ValueError` if only their short names or identifiers differ. C92_list_refused: Two lists with two objects of one unique id that may not be compared (of several objects of one list with this id, the last counts) are refused before anything is compared: with `TypeError` or `ValueError`, as some pair with that fault says, and with no effect. C92_list_refused_one: In particular, when only one pair of the two lists has different types, short names or identifiers, that pair decides the exception. C92_list_compared: And two lists in which all objects with one unique id may be compared are not refused by the check: the comparison goes on with one pair for each unique id of the two lists, in the order in which the ids first occur, the source's first. C92_ex_type: A site and a device with one unique id. C92_ex_value: Two interfaces with one unique id, `\"x__y__z\"`, and different identifiers. C92_ex_paired: They are paired, although another site of that id comes first, and other pairs fit."
  },
  {
   "property": "C93",
   "status": "proved",
   "theorems": [
    "DS.C93_diff_in_order",
    "DS.C93_get_children"
   ],
   "note": "C93_diff_in_order: The elements of a returned diff are in this order, at the top and below every element: by type, at the top as in the destination's `top_level` and below an element as the (source's) class declares its children; of one type first what the source has, in the order in which it holds it or its object lists it, and then what only the destination has, in its order; what flags exclude is left out. C93_get_children: A diff class that does not reorder its children yields them, at the top and below every element, in the order in which the diff holds them: no type is taken up again once another type has begun."
  },
  {
   "property": "C94",
   "status": "proved",
   "theorems": [
    "DS.C94_calls",
    "DS.C94_redis_calls",
    "DS.C94_first_calls",
    "DS.C94_redis_first_calls",
    "DS.C94_one_list"
   ],
   "note": "C94_calls: Between adapters that can be reconciled, a sync into a local store in which all calls succeed makes exactly the calls that can be read off the contents of the two adapters before it, in the order given there (for diff classes that do not reorder). C94_redis_calls: The same of a sync into a Redis store. C94_first_calls: A sync that stops at an exception, with no object missing before (no call returned `None`), has made the first of these calls. C94_redis_first_calls: The same of a Redis store. C94_one_list: There is only one such list of calls."
  },
  {
   "property": "C95",
   "status": "proved",
   "theorems": [
    "DS.C95_any_order",
    "DS.C95_redis_any_order",
    "DS.C95_run",
    "DS.C95_redis_run",
    "DS.C95_same_or_split",
    "DS.C95_same_calls",
    "DS.C95_redis_same_calls"
   ],
   "note": "C95_any_order: With a diff class whose order methods reorder, the same holds with the places of one type rearranged, at the top and below each place. C95_redis_any_order: The same of a sync into a Redis store. C95_run: Between adapters that can be reconciled, the calls that a sync into a local store makes, with their outcomes, are a run that can be read off the contents of the two adapters before it: all of it when the sync returns, the beginning of one when it raises. Whatever the calls return or raise, with or without CONTINUE_ON_FAILURE. C95_redis_run: The same of a sync into a Redis store. C95_same_or_split: Two runs over the same contents are the same, or the same up to a call that has different outcomes in them: what is called next depends on the contents and on the outcomes so far. C95_same_calls: Two syncs between adapters with the same contents, with the same flags: as long as their calls have the same outcomes they make the same calls. C95_redis_same_calls: The same of syncs into Redis stores."
  },
  {
   "property": "C96",
   "status": "partial",
   "theorems": [
    "DS.C96_add_same",
    "DS.C96_add_child_same",
    "DS.C96_diff_add_same",
    "DS.C96_local_partial",
    "DS.C96_redis_partial",
    "DS.C96_diff_partial",
    "DS.C96_add_child"
   ],
   "note": "False as stated: existing_object is always the object that was refused, and in a local store never the one that is there (C96_local_partial), in a Redis store never one with the stored contents (C96_redis_partial), in a diff the one that is there only if the same element was added twice (C96_diff_partial). That the store or diff is unchanged, and all about add_child (which stores no objects, only unique ids), is proved. C96_add_same: Apart from the attribute of the exception, `add` is the `add` of the other properties. C96_add_child_same: `add_child` likewise. C96_diff_add_same: `Diff.add` likewise. C96_local_partial: When a local store refuses an object, there is another object with the same type and unique id in it, and it stays there; but `existing_object` is the object that was refused, not this one. C96_redis_partial: When a Redis store refuses an object, another with the same type and unique id is stored, with other contents, and stays; `existing_object` is the one that was refused. C96_diff_partial: When a diff refuses an element, one with the same type and name is in it already; `existing_object` is the element that was refused, hence the one that is there only if the same element was added twice. C96_add_child: When `add_child` refuses a child, its unique id is in the list, and `existing_object` is the child that was given."
  },
  {
   "property": "C97",
   "status": "proved",
   "theorems": [
    "DS.C97_run",
    "DS.C97_redis_run",
    "DS.C97_any_order",
    "DS.C97_redis_any_order",
    "DS.C97_result",
    "DS.C97_redis_result",
    "DS.C97_outcome",
    "DS.C97_same_calls",
    "DS.C97_empty",
    "DS.C97_at_once"
   ],
   "note": "C97_run: A sync that is given a diff computed before, between adapters that can be reconciled and have the contents again that they had then, makes the calls that can be read off these contents, all of them when it returns and the first ones when it raises: with the flags that the diff was computed with, whatever the flags and the diff class of the sync and whatever the calls return or raise. C97_redis_run: The same of a sync into a Redis store. C97_any_order: With a diff class whose order methods reorder: up to the order of the places of one type. C97_redis_any_order: The same of a sync into a Redis store. C97_result: It returns that diff, or passes on what the user's method of its last call raised; under CONTINUE_ON_FAILURE of the sync, none of the exceptions announced for failed actions. C97_redis_result: The same of a sync into a Redis store. C97_outcome: When all calls succeed, it leaves in a local store what a sync that computes its diff with the flags of that diff leaves. C97_same_calls: The calls are those of a sync that computes its diff with these flags, as long as the outcomes are the same. C97_empty: An empty diff is not used: the sync computes its own. C97_at_once: Right after the diff was computed, a sync that is given it does to the last detail what a sync that computes it does."
  },
  {
   "property": "C98",
   "status": "proved",
   "theorems": [
    "DS.C98_left",
    "DS.C98_left_to",
    "DS.C98_subtree",
    "DS.C98_deletes",
    "DS.C98_determined",
    "DS.C98_same_outcomes"
   ],
   "note": "C98_left: What a sync into a local store leaves, between adapters that can be reconciled, whatever its calls return or raise and whether it returns or raises: it is given by the contents of the two adapters and by which calls did their work. C98_left_to: The same of `sync_to`. C98_subtree: What is below an object that only the destination has, and that takes along what is below it, goes with it as a whole or stays with it as a whole: no failure of a call leaves a part of it. C98_deletes: A delete call is made only for an object that takes part and that the source does not have. C98_determined: So the contents that are left are determined by the contents before and by which calls did their work. C98_same_outcomes: Two syncs from the same contents, whose calls have the same outcomes one after the other, make the same calls and leave the same objects: whatever the user's code, the environment, the recursion limits and what happened before."
  },
  {
   "property": "C99",
   "status": "proved",
   "theorems": [
    "DS.C99_only_when_asked",
    "DS.C99_unchanged_records",
    "DS.C99_every_unchanged",
    "DS.C99_exactly_the_unchanged",
    "DS.C99_once",
    "DS.Ex.C99_hidden_below_failure"
   ],
   "note": "C99_only_when_asked: Without LOG_UNCHANGED_RECORDS a sync writes no record of level debug. C99_unchanged_records: The records of level debug of a sync, in order, have status success and name elements of the diff without action, each element being used at most once; whatever the calls return or raise. C99_every_unchanged: With LOG_UNCHANGED_RECORDS, when the sync returns, an element without action has such a record, unless some element above it was left without an object: its call did not return one, or its action was refused. C99_exactly_the_unchanged: When the sync returns and no element is left without an object, there is exactly one such record for every element without action; so their number is the `no-change` count of the summary of the diff. C99_once: When no two elements of the diff are about the same object, no object has two such records. C99_hidden_below_failure: That there is a record for every element without action needs that the elements above it have objects: when the update of the device returns nothing, its interface, which is the same on both sides, has no record, though the sync returns."
  },
  {
   "property": "C100",
   "status": "proved",
   "theorems": [
    "DS.C100_warning_has_cause",
    "DS.C100_failure_is_warned",
    "DS.C100_absent_is_warned"
   ],
   "note": "C100_warning_has_cause: A warning that no object resulted follows at once the record of a failed attempt and names what that names (a call that returned nothing; or, under CONTINUE_ON_FAILURE, one that raised or an action that was refused), or it names an object that is to be left as it is but is not there: it was not when the sync began, or it has been removed along with one above it. C100_failure_is_warned: Conversely every call that does not return an object is followed by its record and then at once by the warning, which names the same; unless the call raised and that exception ends the sync. C100_absent_is_warned: And an object that is to be left as it is but was not in the destination when the sync began is warned of when the sync returns, unless there is a warning about an element above it."
  },
  {
   "property": "C101",
   "status": "proved",
   "theorems": [
    "DS.C101_removal_report_local",
    "DS.C101_removal_report_redis",
    "DS.C101_how_many",
    "DS.C101_in_all",
    "DS.C101_why",
    "DS.C101_in_a_sync"
   ],
   "note": "C101_removal_report_local: `remove(obj, remove_children=True)` of an object in a local store: of the listings of the objects it removes, each led to the removal of one object or is reported, and nothing else is reported. C101_removal_report_redis: The same on a Redis store, for model names that Redis keys can hold. C101_how_many: How many warnings there are about a child: as many as there are listings of it by the objects that are gone, less the one through which it was removed if it was. C101_in_all: In all, the warnings and the objects that are gone are one more than the listings. C101_why: Why there is a warning: an object that is gone lists the child, and the child was not there to begin with, or it is the object that was to be removed, or it is listed more than once. C101_in_a_sync: A sync warns that a child was not found only after it made a delete call, which succeeded, for an object that was flagged SKIP_CHILDREN_ON_DELETE in the destination when the sync began."
  }
 ]
}