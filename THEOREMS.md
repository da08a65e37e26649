# The theorems, property by property

Generated by `tools/manifest.py` from `properties.jsonl`, `tools/status.json` and the comments in `lean/Verif/Props`.

## C01 Action classification (proved)

A DiffElement's action is 'create' exactly when only the source side is present, 'delete' exactly when only the destination side is present, 'update' exactly when both are present and some attribute that both sides carry has different values, and None in every other case.

*Over:* all elements, all attribute dictionaries of any size on either side, present or absent

* `DS.C01_action_classification` (lean/Verif/Props/Diff.lean:19) `action` is create / delete / update / None exactly in the four stated situations.

## C02 has_diffs means there is something to do (proved)

Diff.has_diffs() is true exactly when some element anywhere in the tree has an action; equivalently when summary() counts at least one create, update or delete; equivalently when dict() is non-empty. DiffElement.has_diffs(include_children=False) is true exactly when that element's own action is not None.

*Over:* all diff trees of any width and depth

* `DS.C02_has_diffs` (lean/Verif/Props/Diff.lean:34) `has_diffs()` of a diff is true exactly when some element at any depth has an action, equivalently when `summary()` counts a create, update or delete, equivalently when `dict()` is not empty.
* `DS.C02_element_has_diffs` (lean/Verif/Props/Diff.lean:61) element level: `has_diffs(include_children=False)` is "the own action is not None"; `has_diffs()` is "some action in the subtree is not None".

## C03 Attribute diffs are exact (proved)

get_attrs_diffs() lists, for an element present on both sides, exactly the shared attributes whose values differ, with the source value under '+' and the destination value under '-', both with the same keys; for a one-sided element it lists that side's attributes completely under '+' (source only) or '-' (destination only) and has no other entry.

*Over:* all elements and attribute dictionaries

* `DS.C03_attrs_diffs_exact` (lean/Verif/Props/Diff.lean:73) Entries of `get_attrs_diffs()`: for a two-sided element both "+" and "-" are present and hold exactly the shared attributes that differ, with the source's resp. destination's value; for a one-sided element the one entry is that side's complete attribute dictionary.

## C04 Updates are sufficient and minimal (proved)

Setting the '+' attributes of an update element on the destination object makes every shared attribute equal to the source's and leaves every other attribute unchanged; removing any entry from '+' would leave a difference.

*Over:* all pairs of objects and attribute values

* `DS.C04_update_sufficient_minimal` (lean/Verif/Props/Diff.lean:124) Setting the "+" attributes of an update element on the destination object raises nothing, gives every differing attribute the source's value, leaves every other field, the child lists and the flags as they were; if `==` is reflexive on the source's values, the element recomputed with the new object has no action; and leaving out any one entry of "+" still leaves an update.

## C05 Summary totals (proved)

In every diff, create + update + delete + no-change of summary() equals len(diff), and the counts are the numbers of elements in the tree with that action, whatever order methods the Diff class defines.

*Over:* all diff trees, all Diff subclasses that reorder children

* `DS.C05_summary_totals` (lean/Verif/Props/Diff.lean:204) The four counts of `summary()` add up to `len(diff)` for every Diff subclass, and are the numbers of elements in the tree with that action when the order methods yield each child once.

## C06 Skip count (proved)

For a diff computed by diff_from/diff_to, summary()['skip'] is never negative, create + delete + 2*update + 2*no-change + skip equals the number of models processed, and skip is exactly the sum of: the number of objects of the types that are top-level in only one adapter; one for every visit to a place that flags exclude (a matched pair excluded by IGNORE counts once, and what is below it does not count); at every matched pair that is shown, the children listed under types only one of the two objects declares; and repetitions in child lists. It is zero if there is nothing of these kinds.

*Over:* all pairs of adapters, all flags, all model flags

*Note:* skip is characterised exactly (C06_skip_exact), as a function of the contents (C06_skip_determined). That it counts models, as one may expect, is false: a matched pair that is excluded counts once (C06_hidden_pair_counts_once).

* `DS.C06_skip_count` (lean/Verif/Props/Differ.lean:20) (what `skip` counts is `C06_skip_exact`) For a diff computed by `diff_from`, `skip` is never negative and completes the other counters to the number of models processed.
* `DS.Ex.C06_hidden_pair_counts_once` (lean/Verif/Props/Differ.lean:934) `skip` is not a number of models: an excluded pair counts as one although two models were visited. Here the models are two sites and the device `a` on both sides, flagged IGNORE; four models were visited, two are represented, but `skip` is 1.
* `DS.C06_skip_exact` (lean/Verif/Props/SkipCount.lean:16) For a diff computed by `diff_from`, `skip` is exactly: the number of objects of the types (`ts`) that are top level in only one of the adapters, plus what the places at the top add (`PassedOver`) - one for every visit to an excluded place, the children of types only one of two compared objects declares, and repetitions in child lists.
* `DS.C06_skip_determined` (lean/Verif/Props/SkipCount.lean:53) What a place adds to `skip` is determined by the contents of the adapters.
* `DS.C06_nothing_skipped` (lean/Verif/Props/SkipCount.lean:132) When no flag excludes anything, the adapters have the same top-level types, objects with the same type and unique id declare the same child types and no object lists a child twice, nothing is skipped.

## C07 Order methods only reorder (proved)

For Diff subclasses whose order_children_* methods yield each given child exactly once, len(), summary() and has_diffs() do not depend on the order methods, and get_children() yields every child exactly once.

*Over:* all diff trees and all permuting order methods

* `DS.C07_order_methods_only_reorder` (lean/Verif/Props/Diff.lean:217) Two Diff subclasses whose order methods only reorder agree on `len()`, `summary()` and `has_diffs()` of the same children, and `get_children()` yields every child exactly once.

## C08 No two diff elements share type and name (proved)

Diff.add either adds the element, or raises ObjectAlreadyExists and leaves the diff unchanged when one with the same type and name is present; hence no diff reachable by any sequence of add calls holds two elements of one type with the same name.

*Over:* all sequences of add calls

* `DS.C08_add` (lean/Verif/Props/Diff.lean:231) `Diff.add` succeeds exactly when no element has the same type and name, appending the element; otherwise it raises ObjectAlreadyExists and the diff is unchanged.
* `DS.C08_unique_names` (lean/Verif/Props/Diff.lean:250) No sequence of `add` calls on an empty diff (whether or not some of them raised) leads to two elements with the same type and name.

## C09 DiffElement ordering (proved)

Comparing DiffElements with < is a strict order by (type, name): irreflexive, asymmetric, transitive, and any two elements with different (type, name) are comparable; so sorting elements with distinct (type, name) is deterministic.

*Over:* all triples of elements

*Note:* Strict order by (type, name), determinism of sorting, what == compares, all operators between elements with different type or name. C09_not_total and C09_both_greater record that the operators do not fit together when only attributes differ.

* `DS.C09_element_order` (lean/Verif/Props/Diff.lean:272) `a < b` on elements is the lexicographic order of (type, name); it is a strict order, total on elements with different (type, name).
* `DS.C09_sorting_deterministic` (lean/Verif/Props/Diff.lean:314) Sorting is deterministic: two orderings of the same elements that are both ascending by `<` are the same list.
* `DS.Ex.C09_not_total` (lean/Verif/Props/Diff.lean:402) negative part: `<` and `==` are not a total order on elements. Two elements with the same type and name and different attributes are neither `<`, `>`-reversed nor `==`, so `a <= b` and `b <= a` are both false.
* `DS.C09_equality` (lean/Verif/Props/ElemEq.lean:35) `a == b` compares the type, the name, the keys and the attributes on both sides, and nothing else (not the children).
* `DS.C09_operators` (lean/Verif/Props/ElemEq.lean:41) Between elements with different type or name, each of the comparison operators is that of the lexicographic order of (type, name).
* `DS.Ex.C09_both_greater` (lean/Verif/Props/ElemEq.lean:82) negative part: each of two elements may be `>` the other.

## C10 The diff is complete and sound (proved)

diff_from without flags contains, for each type that is top level in both adapters, exactly one element per unique id stored in either adapter, carrying exactly the source object's attributes if the source has it and the destination object's attributes if the destination has it, and recursively the same for the children listed by those objects; it contains nothing else.

*Over:* all pairs of adapter contents of any size and nesting depth

* `DS.C10_diff_describes_contents` (lean/Verif/Props/Differ.lean:50) Whatever the flags, a returned diff describes exactly the visible places: one element per place at the top, and recursively one element per place below each of them.
* `DS.C10_top_exact` (lean/Verif/Props/Differ.lean:58) Without flags, at the top: for a type that is top level in both adapters, the elements of that type stand, one for one and without repetition, for the unique ids stored in either adapter, and carry exactly the attributes of the stored objects; no element of another type occurs.
* `DS.C10_all_depths` (lean/Verif/Props/Differ.lean:141) Below the top, the same holds: an element stands for a compared place exactly when that place is visible, at every depth.

## C11 Computing a diff changes nothing (proved)

diff_from/diff_to leave the objects, attributes, child lists and flags of both adapters (and of every other adapter) exactly as they were, whether the diff succeeds or raises, for the local and for the Redis store.

*Over:* all worlds, all flags, success and every error exit

* `DS.C11_diff_changes_nothing` (lean/Verif/Props/Differ.lean:160) Computing a diff, whether it returns or raises, leaves the contents of every adapter (local or Redis), every existing object and what user code can see of it, and all Redis data as they were; no CRUD method is called.

## C12 No diffs means agreement (proved)

diff_from(source).has_diffs() is False exactly when source and destination agree: same unique ids at every level, and equal values on all shared attributes. In particular diffing an adapter against itself, or against an equal copy, reports no diffs.

*Over:* all pairs of adapters for which the diff is defined

* `DS.C12_no_diffs_iff_agree` (lean/Verif/Props/Differ.lean:223) A returned diff has no diffs exactly when every compared, not excluded place holds objects on both sides that agree on all shared attributes.
* `DS.C12_no_diffs_same_ids` (lean/Verif/Props/Differ.lean:243) Without flags a diff without diffs means that both adapters store the same unique ids for every common top-level type, and at every compared place the same children are listed on both sides.
* `DS.C12_self_diff` (lean/Verif/Props/Differ.lean:304) An adapter against itself, or against one with equal contents, has no diffs (for values on which `==` is reflexive).

## C13 diff_to mirrors diff_from (proved)

a.diff_to(b) is b.diff_from(a). Swapping the two adapters turns creates into deletes and the reverse, keeps updates and unchanged elements with '+' and '-' exchanged, so has_diffs() is symmetric and the summary counts of create and delete are exchanged.

*Over:* all pairs of adapters whose models declare the same children

* `DS.C13_returns_both_ways` (lean/Verif/Props/Differ.lean:447) `diff_from` returns in one direction exactly when it does in the other (for values on which `==` is an equivalence).
* `DS.C13_mirrored` (lean/Verif/Props/Differ.lean:464) `a.diff_to(b)` mirrors `a.diff_from(b)`: swapping the adapters (and, if used, the SKIP_UNMATCHED flags) mirrors the diff: the elements are the same up to order, at every depth, with the two sides exchanged.
* `DS.C13_summary_mirrored` (lean/Verif/Props/Differ.lean:474) Hence `has_diffs()` is the same in both directions, and `summary()` has create and delete exchanged and the same update and no-change.

## C14 Global SKIP_UNMATCHED flags on diffs (proved)

With SKIP_UNMATCHED_SRC no element anywhere in the diff has action create; with SKIP_UNMATCHED_DST none has action delete; elements existing on both sides are reported exactly as without the flag: the flagged diff is the unflagged one with the one-sided subtrees removed.

*Over:* all adapters, all flag combinations

* `DS.C14_no_unmatched` (lean/Verif/Props/Differ.lean:498) With SKIP_UNMATCHED_SRC no element at any depth of a returned diff has action create; with SKIP_UNMATCHED_DST none has action delete.
* `DS.C14_flags_prune` (lean/Verif/Props/Differ.lean:527) Adding SKIP_UNMATCHED flags to those of a diff that returns gives a diff that returns too, and it is the first one with the one-sided elements of the skipped sides, and what is below them, removed.

## C15 Model flags on diffs (proved)

An object flagged IGNORE on either side, or SKIP_UNMATCHED_SRC / SKIP_UNMATCHED_DST while unmatched on that side, produces no element in the diff, and its children produce none through it.

*Over:* all adapters and all assignments of model flags

* `DS.C15_model_flags` (lean/Verif/Props/Differ.lean:550) Every element of a returned diff stands for a place whose objects are not flagged IGNORE, nor SKIP_UNMATCHED_SRC / SKIP_UNMATCHED_DST while unmatched on that side; and it is reached from the top through such places only (`Compared`).
* `DS.C15_no_element_at_top` (lean/Verif/Props/Differ.lean:581) An object flagged so as to be excluded has no element at the top of the diff: no element there has its type and shortname (among compared objects of that type, shortnames being distinct).
* `DS.C15_no_element_below` (lean/Verif/Props/Differ.lean:605) The same below an element: an excluded child has no element among the element's children.

## C16 Dangling children are reported, never dropped (proved)

If an object that takes part in the diff lists a child unique id that is not stored, diff_from raises ObjectNotFound; whenever diff_from returns, every child id listed by an object in the diff (for a compared child type) was resolved.

*Over:* all adapter contents including inconsistent ones

* `DS.C16_returned_means_resolved` (lean/Verif/Props/Differ.lean:638) Whenever `diff_from` returns, every child id listed, for a compared child type, by an object at a place in the diff is the id of a stored object.
* `DS.C16_dangling_raises` (lean/Verif/Props/Differ.lean:649) If an object that takes part lists a child that is not stored, `diff_from` raises; and the exception is `ObjectNotFound` unless there is another problem of one of the listed kinds.

## C17 Only like objects are paired (proved)

Whenever diff_from returns, every pair of objects it compared has equal type, equal shortname and equal identifiers; a pair that shares a unique id but differs in identifiers makes it raise instead of being reported as an update.

*Over:* all adapter contents

* `DS.C17_only_like_objects` (lean/Verif/Props/Differ.lean:672) Whenever `diff_from` returns, the two objects at every compared place (shown in the diff or excluded) have equal type, shortname and identifiers.
* `DS.C17_unlike_raises` (lean/Verif/Props/Differ.lean:692) A pair that shares a unique id but differs in type, shortname or identifiers makes `diff_from` raise; and `ValueError` is raised only because of such a pair.

## C18 Diff progress callback (proved)

During diff_from the callback's 'current' values are strictly increasing, 'total' is constant and equals the number of objects in both adapters, and the final value is the number of models processed; when every object is listed exactly once, current never exceeds total.

*Over:* all adapters, all flags

* `DS.C18_diff_progress` (lean/Verif/Props/Differ.lean:738) (all but the last clause, which is `C18_current_within_total`) The callbacks of a diff carry strictly increasing positive `current` values and one constant `total`, the number of objects in the two stores as `count` gives it; when the diff returns, the last value is the number of models processed.
* `DS.C18_current_within_total` (lean/Verif/Props/Progress.lean:124) last clause. When every object of both adapters is listed exactly once, `current` never exceeds `total`, whether the diff returns or raises. (The id of a Redis store is a plain name: other ids are read as patterns.)

## C19 Diff termination (proved)

If no object is (transitively) its own child, diff_from terminates, within a recursion depth bounded by the depth of the child relation; if following child lists from a compared object leads back to itself, no recursion limit suffices and diff_from raises RecursionError.

*Over:* all child graphs

* `DS.C19_bounded_depth` (lean/Verif/Props/Differ.lean:789) If child chains have at most `H` steps in both adapters, a recursion limit of `H + 2` calls suffices: the diff does not raise `RecursionError`.
* `DS.C19_acyclic_terminates` (lean/Verif/Props/Differ.lean:822) If no object of either adapter is its own transitive child, the diff does not raise `RecursionError` once the limit exceeds the number of stored objects of each by two (`Ls`, `Ld` list the stored keys).
* `DS.C19_cycle_never_returns` (lean/Verif/Props/Differ.lean:864) If following child lists from a compared place leads back to it, no recursion limit suffices: `diff_from` raises for every limit, and what it raises is `RecursionError` unless there is another problem.

## C20 Types that are not top level on both sides are ignored (proved)

Only types that appear in both adapters' top_level occur at the top of a diff; objects of other top-level types never appear there and are never created, updated or deleted at the top level of a sync.

*Over:* all top_level declarations and contents; the classes of the destination keep the identifiers given to them

* `DS.C20_top_types` (lean/Verif/Props/Differ.lean:884) Every element at the top of a diff is of a type that is top level in both adapters.
* `DS.C20_sync_types` (lean/Verif/Props/SyncArgs.lean:227) Every call of a sync is about an object of a type that is top level in both adapters, or one that an object listed in one of the adapters' child lists.

## C21 Sync converges (proved)

If create/update/delete succeed, the adapters' child lists form forests in which every object known to both sides has the same parent, and the classes are compatible, then sync_from(source) returns without error and afterwards diff_from(source) with the same flags reports no diffs.

*Over:* all adapter contents satisfying the stated conditions, all flags and permuting order methods; the classes of the destination make equal values of the attribute values of the objects to be created (otherwise see C72)

* `DS.C21_sync_converges` (lean/Verif/Props/Converge.lean:14) A sync in which all calls succeed returns, and afterwards source and destination agree at every place that is compared: `diff_from` with the same flags returns and reports no diffs.
* `DS.C21_sync_to_converges` (lean/Verif/Props/Converge.lean:34) The same of `sync_to`: the target ends up like the adapter that is synced, which stays as it was, and `diff_to` reports nothing.
* `DS.C21_after_any_history` (lean/Verif/Props/HistoryConv.lean:129) Whatever happened before, a sync between two adapters that declare the same models and hold alike forests converges if all calls of user code succeed: it returns, leaves the source as it was, and no diff is left.

## C22 Sync is idempotent (proved)

After a converged sync, repeating sync_from performs no create/update/delete call, changes no object, and does not invoke sync_complete.

*Over:* all adapter contents for which a diff has no diffs

* `DS.C22_second_sync_idle` (lean/Verif/Props/Converge.lean:44) After a converged sync, repeating it (with whatever hooks) returns, makes no call, does not invoke `sync_complete`, and leaves the contents of every adapter as they are.

## C23 Sync touches nothing else (proved)

Whatever the create/update/delete methods do (succeed, return None, raise), sync_from never changes the source adapter's objects, and in the destination it changes, adds or removes only objects that occur in the diff (plus the descendants of deleted objects flagged SKIP_CHILDREN_ON_DELETE).

*Over:* all diffs, all behaviours of user methods, all crash points

* `DS.C23_only_diffed_objects_change` (lean/Verif/Props/Sync.lean:39) Whatever the user's methods do, and wherever the sync stops: when what the destination holds under a type and unique id changes (an object added, removed or altered), then that object occurs in the diff used, or is one of those that go with a successfully deleted object flagged SKIP_CHILDREN_ON_DELETE.
* `DS.C23_other_adapters_untouched` (lean/Verif/Props/Sync.lean:65) No other adapter changes: neither the source nor any other that uses another store.

## C24 SKIP_UNMATCHED flags on syncs (proved)

sync_from with SKIP_UNMATCHED_SRC adds no object to the destination and makes no create call; with SKIP_UNMATCHED_DST it removes no object from the destination and makes no delete call, whatever fails.

*Over:* all adapters, all behaviours of user methods; the classes of the destination keep the identifiers given to them

* `DS.C24_skip_unmatched` (lean/Verif/Props/Sync.lean:110) With SKIP_UNMATCHED_SRC nothing is added to the destination and nothing is created; with SKIP_UNMATCHED_DST nothing is removed and nothing is deleted; whatever fails.

## C25 CRUD arguments (proved)

Every create call made by a sync gets the source object's identifiers and attributes; every update call gets exactly the shared attributes that differ with the source's values; delete is called on the stored destination object.

*Over:* all syncs; the classes of the destination keep the identifiers given to them

* `DS.C25_create_arguments` (lean/Verif/Props/SyncArgs.lean:139) A create call gets the identifiers and attributes of an object that the source stores.
* `DS.C25_update_arguments` (lean/Verif/Props/SyncArgs.lean:169) An update call is made on an object that both sides store, and gets exactly the attributes that both have and that differ, with the source's values.
* `DS.C25_delete_target` (lean/Verif/Props/SyncArgs.lean:200) A delete call is made on an object that the destination stores.

## C26 CRUD call order (proved)

When every call succeeds, the create/update/delete calls of a sync are made in the documented pre-order traversal: elements in the order of get_children(), each object before its children, except that with NATURAL_DELETION_ORDER a deleted object's children come before it, and with SKIP_CHILDREN_ON_DELETE they get no call.

*Over:* all diffs and order methods

* `DS.C26_call_order` (lean/Verif/Props/Sync.lean:180) When a sync returns and no element is left without an object, its calls are exactly those of the documented order.
* `DS.C26_order_unique` (lean/Verif/Props/Sync.lean:188) The documented order is one: there are no two plans for the same elements.

## C27 At most one call per diff element (proved)

A sync makes at most one create/update/delete call per element of the diff, and only calls that the diff prescribes, whatever the calls return or raise.

*Over:* all diffs, all user method behaviours

* `DS.C27_one_call_per_element` (lean/Verif/Props/Sync.lean:193) The calls of a sync, in order, are calls prescribed by elements of the diff, each element being used at most once; whatever the calls return or raise.
* `DS.C27_number_of_calls` (lean/Verif/Props/Sync.lean:207) In particular there are no more calls than elements.

## C28 Failure containment (proved)

If the create or update of an object returns None, or fails with an ObjectCrudException under CONTINUE_ON_FAILURE, no create/update/delete call is made for any element below it in the diff, a failed create adds nothing to the destination, and a failed delete removes nothing.

*Over:* all diffs, all failure points

* `DS.C28_no_calls_below` (lean/Verif/Props/SyncFail.lean:87) When the call about an element does not return an object (it returns None or raises), no call is made about any element below it; except for a deleted object flagged NATURAL_DELETION_ORDER, whose children come first.
* `DS.C28_only_success_changes_contents` (lean/Verif/Props/SyncFail.lean:112) An object is added only by a create call for it that returns an object, and is removed only by a delete call on it that returns an object, or along with an object flagged SKIP_CHILDREN_ON_DELETE whose delete call returned an object.
* `DS.C28_failed_create_adds_nothing` (lean/Verif/Props/SyncFail.lean:172) A failed create adds nothing: when the create call about an object that is not stored does not return an object, the object is not stored afterwards.
* `DS.C28_failed_delete_removes_nothing` (lean/Verif/Props/SyncFail.lean:187) A failed delete removes nothing: when the delete call on an object does not return an object, the object is still stored afterwards, unless it goes along with another, successfully deleted object flagged SKIP_CHILDREN_ON_DELETE.

## C29 Fail-stop by default (proved)

Without CONTINUE_ON_FAILURE, the first ObjectCrudException aborts the sync: it propagates to the caller, no later create/update/delete call is made, sync_complete is not invoked, and the calls made are a prefix of those a fully successful sync would have made.

*Over:* all diffs, all crash points

* `DS.C29_first_failure_aborts` (lean/Verif/Props/Sync.lean:221) Without CONTINUE_ON_FAILURE, an ObjectCrudException raised by a call is what the sync raises, no call comes after it, and `sync_complete` is not invoked.
* `DS.C29_calls_are_a_prefix` (lean/Verif/Props/Sync.lean:238) The calls made are a prefix of those of the documented order, however the sync ends (as long as no earlier element was left without an object, so that what is below it was passed over).

## C30 CONTINUE_ON_FAILURE never stops early (proved)

With CONTINUE_ON_FAILURE, if user methods only fail with ObjectCrudException or by returning None, no ObjectCrudException escapes sync_from, and every element that has no failed ancestor is attempted.

*Over:* all diffs, all failure schedules

* `DS.C30_no_crud_exception` (lean/Verif/Props/SyncFail.lean:211) With CONTINUE_ON_FAILURE no ObjectCrudException escapes from a sync.
* `DS.C30_everything_attempted` (lean/Verif/Props/SyncFail.lean:300) When a sync returns, something was attempted for every element with an action, except those below an element that was left without an object (or below a deleted object flagged SKIP_CHILDREN_ON_DELETE).

## C31 Recovery after partial or aborted syncs (proved)

After any number of partially failed or aborted syncs, a later sync in which all calls succeed converges as if the failures had not happened.

*Over:* all failure schedules and crash points of all earlier runs; the classes of the destination make equal values of the attribute values of the objects to be created (otherwise see C72)

* `DS.C31_failures_do_not_matter` (lean/Verif/Props/Converge.lean:74) After any number of syncs from the same source, with any outcomes of the user's code (refused calls, exceptions, aborted syncs), any flags and diff classes, a sync in which all calls succeed converges.

## C32 sync_complete is invoked exactly on change (proved)

sync_complete is invoked exactly once, after all calls, when at least one create/update/delete was attempted and the sync did not raise; it is not invoked when the diff has nothing to do.

*Over:* all diffs and outcomes

* `DS.C32_sync_complete` (lean/Verif/Props/Sync.lean:248) `sync_complete` is invoked exactly once, after everything else, when the sync returns and something was attempted; otherwise it is not invoked.
* `DS.C32_nothing_to_do` (lean/Verif/Props/Sync.lean:289) A sync whose diff has nothing to do attempts nothing.

## C33 Sync progress callback (proved)

During a sync the callback's 'current' is strictly increasing by one, 'total' is constant and equals len(diff), current never exceeds total, and reaches it when no call fails and no SKIP_CHILDREN_ON_DELETE shortcut is taken.

*Over:* all diffs, outcomes and order methods

* `DS.C33_progress` (lean/Verif/Props/Sync.lean:324) The progress callback of a sync is called with `current` = 1, 2, …, k and `total` = `len(diff)`; k is at most the total, and equal to it when the sync returns, no element is left without an object and none to be deleted is flagged SKIP_CHILDREN_ON_DELETE.

## C34 Stale diffs are refused, not misapplied (proved)

Applying a diff to a destination that changed since: creating an object that exists, or updating or deleting one that does not, raises ObjectCrudException (or is skipped under CONTINUE_ON_FAILURE) without calling the user's method and without changing the destination.

*Over:* all diffs and all destination contents

* `DS.C34_stale_refused` (lean/Verif/Props/SyncFail.lean:354) An element whose action does not fit the destination (an object to be created exists, one to be updated or deleted does not) is refused: the user's method is not called for it, and what the destination stores under its key stays as it is. (Unless, for an object to be created, the one that exists is removed along with an object flagged SKIP_CHILDREN_ON_DELETE.)
* `DS.C34_stale_raises` (lean/Verif/Props/SyncFail.lean:402) Without CONTINUE_ON_FAILURE such an element makes the sync raise, unless it has no turn because an element above it is left without an object or deleted with its children.
* `DS.C34_crud_error_source` (lean/Verif/Props/SyncFail.lean:431) An ObjectCrudException that a sync raises was raised by one of the user's methods, or it is the one for refusing an element whose action does not fit the destination.

## C35 A provided diff is used as is (partial)

sync_from(diff=d) applies d instead of computing a new diff, and raises DiffClassMismatch when d is not an instance of diff_class.

*Over:* all diffs, including empty ones

*Note:* That nothing is compared and that the supplied diff is what is returned is proved for every non-empty diff, in every state and for any user code (C35_not_recomputed, C35_not_recomputed_open). That every call is one prescribed by the diff is proved for diffs without attribute values outside the declared attributes and with only deletions below deletions (GoodDiff, true of every computed diff), and false without: C35_mixed_deletion. False for empty diffs: C35_empty_diff_ignored.

* `DS.C35_not_recomputed` (lean/Verif/Props/Supplied.lean:8) With a diff supplied that is not empty no comparison takes place, and a sync that returns, returns that diff: for every such diff, in every state, whatever the user's methods decide.
* `DS.C35_not_recomputed_open` (lean/Verif/Props/Supplied.lean:16) The same when the user's methods may do anything to the adapters.
* `DS.Ex.C35_mixed_deletion` (lean/Verif/Props/Supplied.lean:41) where it fails: the diff deletes the site, which is flagged NATURAL_DELETION_ORDER, and updates its device. The site is asked to update itself instead, for that is the action of the last child, and it stays; the device is updated twice.
* `DS.C35_class_mismatch` (lean/Verif/Props/SyncArgs.lean:266) A supplied diff that is not an instance of `diff_class` is refused, and nothing happens. (An empty one is not looked at, `C35_empty_diff_ignored`.)
* `DS.C35_supplied_diff_applied_partial` (lean/Verif/Props/SyncArgs.lean:277) A supplied diff that is not empty is what is applied: no comparison takes place, every call is one prescribed by an element of it, and it is what the sync returns.
* `DS.Ex.C35_empty_diff_ignored` (lean/Verif/Props/SyncEx.lean:236) where it fails: an empty diff that is supplied is neither checked (its class is no subclass of `diff_class`) nor used: a diff is computed and applied.

## C36 The local store is a map (proved)

Every sequence of add/update/remove/get calls on a LocalStore behaves like a map from (model name, unique id) to objects: get returns the object last stored under that key and raises ObjectNotFound otherwise; add of a different object under a used key raises ObjectAlreadyExists and changes nothing; re-adding the same object is a no-op; remove of an absent object raises ObjectNotFound and changes nothing; operations on one key never affect another.

*Over:* all operation sequences

* `DS.C36_local_store_is_map` (lean/Verif/Props/Store.lean:53) Every sequence of `add`, `update`, `remove`, `get`, `get_or_none` and `get_all` calls on any number of adapters with local stores, going on after exceptions, behaves like the same sequence on maps from (model name, unique id) to objects: same results, same exceptions, same final contents.
* `DS.C36_get_by_identifiers` (lean/Verif/Props/Store.lean:61) An object can be fetched by its model class and its identifiers just as well as by model name and unique id.

## C37 Counts agree with contents (partial)

count(model) equals len(get_all(model)), count() is the sum over all models, and len(adapter) equals count(), after any history of operations.

*Over:* all histories, local and Redis stores

*Note:* count() as the sum over all models and len() are proved for both stores. count(model) = len(get_all(model)) as stated is false for the empty name (local, C37_empty_name_counts_all) and for names with upper-case letters (Redis, C37_redis_count_lowercases); what count(model) is in all cases is proved exactly (C37_count_model_local, C37_count_model_redis).

* `DS.C37_count_model_local` (lean/Verif/Props/ModelNames.lean:12) In a local store, exactly: `count(model)` is the number of objects `get_all(model)` returns, for every model name and class but the empty name, for which it is `count()`.
* `DS.C37_count_model_redis` (lean/Verif/Props/ModelNames.lean:38) In a Redis store, exactly: `count(model)` is the number of objects that `get_all` returns for the name of the model in lower case.
* `DS.C37_len_is_count` (lean/Verif/Props/Store.lean:140) `len(adapter)` equals `count()`.
* `DS.C37_count_model_local_partial` (lean/Verif/Props/Store.lean:146) partial: in a local store `count(model)` is the number of objects `get_all(model)` returns. (Not for the empty model name: `C37_empty_name_counts_all`.)
* `DS.C37_count_model_redis_partial` (lean/Verif/Props/Store.lean:166) partial: in a Redis store `count(model)` is the number of objects `get_all(model)` returns, for a lower-case model name. (Not otherwise: `C37_redis_count_lowercases`.)
* `DS.C37_count_is_sum_local` (lean/Verif/Props/Store.lean:236) `count()` is the sum of the numbers of objects of all models, in a local store.
* `DS.C37_count_is_sum_redis` (lean/Verif/Props/Store.lean:257) `count()` is the sum of the numbers of objects of all models, in a Redis store.
* `DS.Ex.C37_empty_name_counts_all` (lean/Verif/Props/Store.lean:829) fails for the empty model name on a local store: `count("")` counts everything, `get_all("")` returns nothing.
* `DS.Ex.C37_redis_count_lowercases` (lean/Verif/Props/Store.lean:839) fails on a Redis store for a model name with upper-case letters: `count` lower-cases it, `get_all` does not.

## C38 get_by_uids is ordered and all-or-nothing (proved)

get_by_uids(uids) returns the objects in the order of the given ids, one per id, or raises ObjectNotFound if any id is missing.

*Over:* all id lists with repetitions, all contents

* `DS.C38_get_by_uids` (lean/Verif/Props/Store.lean:318) `get_by_uids` returns one object per given id, in order, each being the one stored under that id — or raises `ObjectNotFound`, exactly if some id is not stored. It changes nothing.

## C39 get_or_* and update_or_* helpers (partial)

get_or_instantiate, get_or_add_model_instance, update_or_instantiate and update_or_add_model_instance return created=True exactly when no object with that id was stored; afterwards an object with that id is stored and is the one returned; the get variants leave an existing object unchanged, the update variants leave it with the given attribute values; no other object changes. If an attribute given to update_or_instantiate is not a field it raises AttributeError, but the object is stored all the same, with the values of the attributes before that one.

*Over:* all contents, ids and attributes; the class keeps the identifiers given to it (otherwise a second get_or_instantiate raises ObjectAlreadyExists)

*Note:* Proved for local stores, and for Redis stores but for one point: there the update variants leave the stored object as it was when there is one (C39_redis_update_or_instantiate_partial, C39_redis_update_or_add_partial prove that, and what they return; witness C39_redis_update_lost).

* `DS.C39_redis_get_or_instantiate` (lean/Verif/Props/HelpersRedis.lean:45) On a Redis store `get_or_instantiate` returns a copy of the stored object, which stays as it is, or adds and returns an instance made of the given identifiers and attributes; its failures are those on a local store (`C39_get_or_instantiate`), and then nothing changes.
* `DS.C39_redis_get_or_add` (lean/Verif/Props/HelpersRedis.lean:121) On a Redis store `get_or_add_model_instance` returns a copy of the stored object with the same model and id, which stays as it is, or stores the given object and returns it. It never fails.
* `DS.C39_redis_update_or_instantiate_partial` (lean/Verif/Props/HelpersRedis.lean:160) partial (on a Redis store the new values of an existing object are not stored): `update_or_instantiate` is like `get_or_instantiate`, and the returned object has the given attribute values; but when one was stored already, what is stored stays as it was. Hypotheses as in `C39_update_or_instantiate_partial`.
* `DS.C39_redis_update_or_add_partial` (lean/Verif/Props/HelpersRedis.lean:211) partial (on a Redis store the new values of an existing object are not stored): `update_or_add_model_instance` is like `get_or_add_model_instance`, and the returned object has the attribute values of the given one; but when one was stored already, what is stored stays as it was. Hypothesis: those attributes are fields of the object already stored, if any.
* `DS.Ex.C39_parsed_identifier` (lean/Verif/Props/ParseEx.lean:183) The same of `get_or_instantiate`: the second call with the same identifiers finds nothing, makes an instance, and cannot add it.
* `DS.C39_get_or_instantiate` (lean/Verif/Props/Store.lean:389) `get_or_instantiate`: an existing object is returned unchanged; otherwise an instance made of the given identifiers and attributes is added and returned. The only failures: an identifier is missing (`KeyError`), a field is given both as identifier and as attribute (`TypeError`), or a required field is not given or a value refused (`ValidationError`); then nothing changes. The class is supposed to leave the identifiers as they read (if not: `C39_parsed_identifier`).
* `DS.C39_get_or_add` (lean/Verif/Props/Store.lean:469) `get_or_add_model_instance`: an existing object with the same model and id is returned unchanged; otherwise the given object is added and returned. It never fails.
* `DS.C39_update_or_instantiate_partial` (lean/Verif/Props/Store.lean:558) partial (local stores only; false on Redis: `C39_redis_update_lost`): `update_or_instantiate` is like `get_or_instantiate`, and afterwards the returned object has the given attribute values, and is otherwise as before (or as instantiated). Hypotheses: the attributes are a dictionary of fields, both of the class and of the object already stored, if any; no field is given twice; all required fields are given, no value is refused; the class leaves the identifiers as they read.
* `DS.C39_update_or_add_partial` (lean/Verif/Props/Store.lean:614) partial (local stores only; see `C39_redis_update_lost`): `update_or_add_model_instance` is like `get_or_add_model_instance`, and afterwards the returned object has the attribute values of the given one. Hypothesis: those attributes are fields of the object already stored, if any.
* `DS.Ex.C39_redis_update_lost` (lean/Verif/Props/Store.lean:844) fails on a Redis store: `update_or_instantiate` sets the attributes of the instance it returns, but what is stored keeps the old ones.
* `DS.C39_unknown_attribute` (lean/Verif/Props/UnknownAttr.lean:53) If one of the attributes given to `update_or_instantiate` is not a field, it raises `AttributeError`; but the object is in the store all the same, a new one if there was none, and has the values of the attributes given before that one.

## C40 remove with remove_children (proved)

remove(obj, remove_children=True) on a stored object always terminates without error, even if child lists contain missing ids or cycles, and removes exactly the stored objects reachable from obj through child lists; remove_children=False removes exactly obj.

*Over:* all child graphs, including cyclic and dangling

* `DS.C40_remove_children_local` (lean/Verif/Props/Store.lean:694) On a local store `remove(obj, remove_children=True)` of a stored object always returns, if the recursion limit is at least the number of stored objects, whatever the child lists contain (missing ids, cycles). It removes exactly the objects reachable from `obj` through child lists; everything else, in this and all other stores, is as before.
* `DS.C40_remove_children_redis` (lean/Verif/Props/Store.lean:723) The same on a Redis store, for an object obtained from it (or equal to the stored one).
* `DS.C40_remove_only` (lean/Verif/Props/Store.lean:774) `remove(obj)` without `remove_children` removes exactly `obj`; if it is not stored it raises `ObjectNotFound` and removes nothing. (Any recursion limit `n + 1` will do.)

## C41 The Redis store is the same map, isolated per store id (proved)

With store ids and model names free of ':' and glob characters, a RedisStore behaves like the same map from (model name, unique id) to object contents, and stores with different store ids never see or affect each other's objects.

*Over:* all operation sequences on any number of stores sharing one Redis database

* `DS.C41_redis_store_is_map` (lean/Verif/Props/Store.lean:95) Every sequence of operations on any number of adapters with Redis stores sharing one server, going on after exceptions, behaves like the same sequence on maps from (store id, model name, unique id) to object contents: same results, same exceptions, same final contents; in particular an operation on one store never affects another. (Adding an object under a used key is a no-op if it has the same data.) Store ids and model names must be free of `:`.
* `DS.C41_isolated` (lean/Verif/Props/Store.lean:121) Stores with different ids are isolated: operations on stores other than `sid` leave what `sid` holds unchanged.
* `DS.Ex.C41_pattern_store_id` (lean/Verif/Props/Store.lean:852) needs plain store ids: the id is put into a `SCAN` pattern as it is, so a store with the id `a*` returns the objects of the store `ab`, and a store with the id `[a]` does not find its own.
* `DS.C41_add_used_key` (lean/Verif/Props/StoreSame.lean:90) Adding an object to a Redis store under a key that is in use changes nothing; it succeeds exactly if the object that the store holds has the same data — equal values, child lists and flags — and else raises `ObjectAlreadyExists`.

## C42 Sync converges on the Redis store (partial)

The convergence guarantee of sync_from also holds when the destination uses a RedisStore: updated attributes and changed child lists are persisted.

*Over:* all adapter contents

*Note:* False as stated: C42_updates_not_persisted (in general: what is updated, and every changed child list, is stored as before), with witnesses C42_redis_changes_lost and C42_second_sync_raises. What does hold is proved: a sync into a Redis store only adds and removes (C42_redis_adds_and_removes_partial), and when all calls succeed exactly the created objects are there and the deleted ones gone (C42_redis_contents_partial). C91 says exactly what the next diff shows, and exactly when such a sync converges.

* `DS.Ex.C42_redis_changes_lost` (lean/Verif/Props/SyncEx.lean:248) where it fails: the sync succeeds, but the new value of the updated device and the new child list of the site are not in the store.
* `DS.C42_redis_adds_and_removes_partial` (lean/Verif/Props/SyncRedis.lean:66) (not convergence: updates and child lists are not persisted, `C42_updates_not_persisted`) Whatever the calls do and wherever a sync into a Redis store stops, it only adds and removes: what is stored afterwards was stored before exactly like that (same values, same child lists), or is what a successful `create` for an element of the diff made; what was stored before is still there like that, unless an element of the diff deleted it or it went along with a deleted object.
* `DS.C42_updates_not_persisted` (lean/Verif/Props/SyncRedis.lean:91) where it fails in general: what a sync into a Redis store updates is stored afterwards exactly as before, whatever the calls do (unless it went along with a deleted object); so is every object that the diff neither creates nor deletes, its child lists included.
* `DS.C42_redis_contents_partial` (lean/Verif/Props/SyncRedis.lean:114) (for creations and deletions; updates and child lists are not persisted) When a sync into a Redis store returns, every element had its object and all calls succeeded, then the store holds: for every element to create the object asked for, nothing for every element to delete, and everything else as before. (No object flagged SKIP_CHILDREN_ON_DELETE is deleted.)
* `DS.Ex.C42_second_sync_raises` (lean/Verif/Props/SyncRedisEx.lean:134) where it fails: the device that the first sync created is not in the stored child list of its site, so a second sync would create it again, is refused, and raises.

## C43 Unique ids identify (partial)

Two objects of one class have the same unique id exactly when their identifier values have the same string forms; get by identifier dict and get by unique id string find the same object.

*Over:* all identifier values

*Note:* Injectivity proved for single identifiers and for strings without '__' that do not end in '_'; refuted in general (C43_not_injective). Lookup by dict and by unique id proved equal.

* `DS.C43_unique_ids_partial` (lean/Verif/Props/Obj.lean:18) **C43 (partial)** For classes with one identifier, and otherwise for identifier values whose strings do not contain `"__"` nor end in `"_"` (`SafeId`), two objects of one class have the same unique id exactly when all identifiers have the same string form. Missing: arbitrary strings with several identifiers, where it is false (`Ex.C43_not_injective`).
* `DS.C43_get_by_dict_or_uid` (lean/Verif/Props/Obj.lean:41) Looking an object up by its identifier dictionary and by its unique id string is the same operation, for both stores and whatever is stored.
* `DS.Ex.C43_not_injective` (lean/Verif/Props/Obj.lean:431) negative part: different identifier values, same unique id.

## C44 Child lists (proved)

add_child appends the child's unique id to the list for its type, or raises and changes nothing if the type is not a declared child type (ObjectStoreWrongType) or the id is already listed (ObjectAlreadyExists); remove_child undoes add_child and raises ObjectNotFound if the id is not listed; no sequence of add_child/remove_child calls produces a duplicate.

*Over:* all sequences of calls

* `DS.C44_add_child` (lean/Verif/Props/Obj.lean:64) `add_child`: exactly one of three outcomes, decided by the declared child types and the list.
* `DS.C44_no_list` (lean/Verif/Props/Obj.lean:84) An object that lacks the field itself (as `model_construct` can make one) raises `AttributeError` in both methods.
* `DS.C44_remove_child` (lean/Verif/Props/Obj.lean:92) `remove_child`: likewise.
* `DS.C44_remove_undoes_add` (lean/Verif/Props/Obj.lean:131) `remove_child` undoes `add_child` exactly.
* `DS.C44_no_duplicates` (lean/Verif/Props/Obj.lean:154) No sequence of `add_child`/`remove_child` calls, failing or not, puts an id twice into a child list.

## C45 Model class declarations are validated (proved)

A DiffSyncModel subclass is accepted exactly when every name in _identifiers, _shortname, _attributes and _children refers to a field (identifiers may also be class attributes) and no field is in two of _identifiers, _attributes and _children; hence get_identifiers() and get_attrs() of any instance never share a key.

*Over:* all class declarations

* `DS.C45_class_validation` (lean/Verif/Props/Obj.lean:212) A subclass declaration is accepted exactly when the class variables refer to fields (identifiers may be other class attributes) and no field is in two of the three groups; otherwise `AttributeError`.
* `DS.C45_ids_attrs_disjoint` (lean/Verif/Props/Obj.lean:270) Consequence for instances of an accepted class: `get_identifiers()` and `get_attrs()` never share a key.

## C46 dict / load_from_dict round trip (proved)

Loading the dict() export of an adapter into a fresh adapter of the same class yields an adapter with the same export and the same objects (attributes, child lists, model flags), for data whose fields equal to their defaults are omitted as well. The export itself raises nothing but KeyError, and that only if get_all returns an object of another type for one of the names, as a Redis store does when the type of a stored object has a colon in its name.

*Over:* all adapter contents

* `DS.C46_dict_returns_iff` (lean/Verif/Props/DictRaises.lean:97) Exactly when an export returns: `dict()` of any adapter, with any store in any state, returns or raises `KeyError`; it returns if and only if every object that `get_all` returns for a name is of that type, or of a type whose name comes earlier among the names of `get_all_model_names()`.
* `DS.C46_redis_colon_key_error` (lean/Verif/Props/DictRaises.lean:109) Where exporting fails: an adapter with a Redis store that holds an object whose type has a colon in its name cannot be exported, `dict()` raises `KeyError` (the names of `get_all_model_names()` have no colons).
* `DS.C46_round_trip` (lean/Verif/Props/RoundTrip.lean:35) C46. Exporting an adapter `A` (any store) and loading the export into an adapter `B` of the same class with an empty local store succeeds; afterwards `B` holds exactly the objects of `A`, each with its values, child lists and flags; exporting `B` gives the same entries as the first export; and neither export nor load changed `A`.
* `DS.C46_load_into_redis` (lean/Verif/Props/RoundTrip.lean:85) C46 for a target whose store is in Redis: the load succeeds and every object is there again.

## C47 Tree traversal helper (proved)

get_tree_traversal(as_dict=True) contains every model class of the adapter and each child type under the path of its parent; get_path returns a path exactly when the key occurs, the path really leads to the key, and set_key never removes keys.

*Over:* all class declarations and nested dictionaries

* `DS.C47_get_path` (lean/Verif/Props/Utils.lean:83) `get_path` returns a path exactly when the key occurs at some depth, and the path exists and ends at the key.
* `DS.C47_set_key` (lean/Verif/Props/Utils.lean:113) `set_key` never removes a key path, and makes the given path exist.
* `DS.C47_tree_traversal` (lean/Verif/Props/Utils.lean:262) `get_tree_traversal(as_dict=True)` always succeeds; it contains every model class of the adapter, and every child type at a path directly below an occurrence of its parent.

## C48 Flag algebra (proved)

Enabling a flag with |= makes exactly that flag test true and leaves every other flag as it was, and &= ~ disables exactly that flag; SKIP_UNMATCHED_BOTH behaves as both SKIP_UNMATCHED_SRC and SKIP_UNMATCHED_DST.

*Over:* all flag values

* `DS.C48_set_clear` (lean/Verif/Props/Obj.lean:369) Setting / clearing the flag of bit `i` sets / clears exactly that flag.
* `DS.C48_named_flags` (lean/Verif/Props/Obj.lean:379) The declared flags are distinct single bits, and the BOTH flags test true exactly when one of the two does; setting BOTH sets both and no other flag.

## C49 get_all_model_names lists the stored models (partial)

get_all_model_names() is exactly the set of model names that have at least one stored object, after any history of operations.

*Over:* all histories, local and Redis stores

*Note:* Exact for Redis. For local stores every stored model is listed; the converse is false (C49_phantom_name). C49_model_names_local says exactly which names are listed after any sequence of operations: those of models that any operation was about.

* `DS.C49_model_names_local` (lean/Verif/Props/ModelNames.lean:299) In a local store, exactly: after any sequence of operations `get_all_model_names()` has the names it had and those of the models that an operation on this store was about, be it to store, to look up or to remove, and successfully or not.
* `DS.C49_model_names_redis` (lean/Verif/Props/Store.lean:790) In a Redis store `get_all_model_names()` is exactly the set of models with a stored object.
* `DS.C49_model_names_local_partial` (lean/Verif/Props/Store.lean:813) partial: in a local store every model with a stored object is among `get_all_model_names()`. The converse is false (`C49_phantom_name`): looking up or removing objects leaves names of models without objects.
* `DS.Ex.C49_phantom_name` (lean/Verif/Props/Store.lean:858) fails on a local store: looking up a model without objects makes it one of the model names.

## C50 Natural deletion order (proved)

When a deleted object carries NATURAL_DELETION_ORDER (and not SKIP_CHILDREN_ON_DELETE), the delete calls of everything below it in the diff precede its own; without the flag its own comes first.

*Over:* all diffs

* `DS.C50_natural_deletion_order` (lean/Verif/Props/SyncDel.lean:109) When a deleted object carries NATURAL_DELETION_ORDER (and not SKIP_CHILDREN_ON_DELETE), no call about anything below it in the diff comes after its own delete call; without the flag none comes before.

## C51 SKIP_CHILDREN_ON_DELETE (proved)

Deleting an object flagged SKIP_CHILDREN_ON_DELETE makes exactly one delete call, none for its descendants, and removes from the destination exactly that object and the objects reachable from it through child lists.

*Over:* all child graphs

* `DS.C51_no_calls_for_descendants` (lean/Verif/Props/SyncDel.lean:123) Deleting an object flagged SKIP_CHILDREN_ON_DELETE makes one delete call, and none about anything below it in the diff.
* `DS.C51_removes_exactly` (lean/Verif/Props/SyncDel.lean:269) The sync of a deleted element whose object is flagged SKIP_CHILDREN_ON_DELETE, in any state, when the delete call returns the object: that object and the objects reachable from it through child lists are removed, and nothing else; no other object changes, except that it is taken out of the child list of the parent.

## C52 Protected models survive a sync (partial)

A destination object flagged IGNORE, or SKIP_UNMATCHED_DST and absent from the source, is still stored and unchanged after any sync.

*Over:* all contents, flags and outcomes; the classes of the destination keep the identifiers given to them

*Note:* Proved for every run and outcome unless the object is removed along with an ancestor flagged SKIP_CHILDREN_ON_DELETE, where it is false: C52_removed_along.

* `DS.C52_protected_partial` (lean/Verif/Props/SyncArgs.lean:309) An object of the destination that is flagged IGNORE, or flagged SKIP_UNMATCHED_DST and not stored by the source, is stored and unchanged after a sync, whatever the user's methods do. Proved unless it is removed along with an object flagged SKIP_CHILDREN_ON_DELETE; then it is false (`C52_removed_along`).
* `DS.Ex.C52_removed_along` (lean/Verif/Props/SyncEx.lean:230) where it fails: the device `c` is flagged IGNORE, but it is removed along with its site, which is flagged SKIP_CHILDREN_ON_DELETE.

## C53 Every attempt is logged under its own object (partial)

For each create/update/delete attempt a sync logs exactly one outcome record, whose model and unique_id are those of the object concerned.

*Over:* all diffs and outcomes

*Note:* False as stated for one case, and exactly which is proved. There is exactly one record for each attempt, with the right action, level and status, in both directions for every sync (C53_call_is_recorded, C53_record_has_call). The record of a call names the object of the call if and only if the object is not deleted after others below it in the diff (NATURAL_DELETION_ORDER); in that case it names what the record before it names, which is one below (C53_record_names, C53_natural_deletion_misreports).

* `DS.Ex.C53_natural_deletion_misreports` (lean/Verif/Props/SyncEx.lean:203) where it fails: the site `lax` is flagged NATURAL_DELETION_ORDER, so its device `c` is deleted first; the record that follows the deletion of the site then says that the device was deleted.
* `DS.C53_call_is_recorded` (lean/Verif/Props/SyncLog.lean:59) Every create/update/delete call of a sync is followed at once by one outcome record, which carries the action of the call and the status and level of its outcome, unless the call ends the sync by an exception that is not a CRUD exception. The record names the object the call is about, except for one case: when the object is deleted after those below it (NATURAL_DELETION_ORDER), it may name one of those.
* `DS.C53_record_has_call` (lean/Verif/Props/SyncLog.lean:80) Conversely every outcome record follows at once a call, which it names unless the object is deleted after those below it, or is about an action that was refused because the object to be created existed, or the one to be updated or deleted did not (no call is made then). So there is exactly one record for each attempt. (Records of level debug are those of unchanged objects, under LOG_UNCHANGED_RECORDS.)
* `DS.C53_record_names` (lean/Verif/Props/SyncLog.lean:135) Exactly what the record of a call names, for every sync. If the object is deleted after others below it in the diff (NATURAL_DELETION_ORDER), the record names what the outcome record before it names, which is never the object of the call but one below it. Every other record names the object of the call.
* `DS.C53_call_is_recorded_partial` (lean/Verif/Props/SyncLog.lean:193) Every create/update/delete call of a sync is followed at once by one outcome record, which carries the action, the model name and the unique id of the object the call is about, and the status and level of the outcome; unless the call ends the sync by an exception that is not a CRUD exception. Proved for syncs that delete no object flagged NATURAL_DELETION_ORDER; for those it is false (`C53_natural_deletion_misreports`).
* `DS.C53_record_has_call_partial` (lean/Verif/Props/SyncLog.lean:205) Conversely every outcome record follows at once the call it is about, or is about an action that was refused because the object to be created existed, or the one to be updated or deleted did not (no call is made then). So there is exactly one record for each attempt. (Records of level debug are those of unchanged objects, under LOG_UNCHANGED_RECORDS.)

## C54 Diff.dict() is faithful (proved)

For a diff without two elements of the same type and name, dict()[type][name] exists exactly for the children that have differences, holds exactly that child's get_attrs_diffs() entries, and recursively the same rendering of its children.

*Over:* all diff trees, all reordering Diff subclasses

* `DS.C54_dict_faithful` (lean/Verif/Props/Diff.lean:342) `Diff.dict()` is a faithful nested rendering: `dict()[type][name]` exists exactly for the children with differences, and holds that child's `get_attrs_diffs()` entries and the same rendering of its children.

## C55 Adapter class declarations are validated (proved)

An Adapter subclass is accepted exactly when every model class attribute is stored under its own type name and every top_level entry names a model class attribute; otherwise its declaration raises AttributeError.

*Over:* all adapter class declarations

* `DS.C55_adapter_validation` (lean/Verif/Props/Obj.lean:289) An adapter class is accepted exactly when every model class is stored under its own type name and every `top_level` entry names a model class.
* `DS.C55_adapter_refused` (lean/Verif/Props/Obj.lean:311) And a class that is not accepted is refused with `AttributeError`.

## C56 tree_string draws every key once (proved)

The drawing of a nested dictionary consists of the root line and exactly one line per key at any depth: each key's line stands before those of the keys below it and in the order of the dictionaries, shows the key, and is indented by one level per enclosing key, with a bar where the enclosing dictionary goes on below.

*Over:* all nested dictionaries

* `DS.C56_tree_string_lines` (lean/Verif/Props/Utils.lean:282) `tree_string` draws the root plus exactly one line per key at any depth.
* `DS.C56_tree_string_text` (lean/Verif/Props/Utils.lean:342) The lines below the root are the pictures of the keys, in order.
* `DS.C56_tree_string_keys` (lean/Verif/Props/Utils.lean:348) The keys drawn are exactly those that occur, at any depth.

## C57 Consistent stores and lasting identities after any history (proved)

Whatever sequence of library calls a program has made (creating objects, assigning attributes, add/update/remove, get and its variants, get_or_*/update_or_*, add_child/remove_child, diffs, syncs with arbitrary user methods and failures, dict/load), on any number of adapters with local and Redis stores: everything an adapter holds under (model name, unique id) is a complete instance of the class the adapter declares for that name, has that unique id, and has child lists without duplicates; get_all returns each object that get finds, once; and an object that exists keeps its class and its unique id for ever.

*Over:* all finite histories of API calls with all arguments, whether the calls return or raise, all user methods, all adapters over local and Redis stores

* `DS.C57_stored_objects_well_formed` (lean/Verif/Props/History.lean:11) After any history of calls (creating and changing objects, storing, updating and removing them, reading, diffs, syncs with any user code and any failures, exports and imports, local and Redis stores), whatever an adapter holds under a key is a well-formed instance of the class it declares for that model name and carries that unique id.
* `DS.C57_get_all_agrees_with_get` (lean/Verif/Props/History.lean:21) After any history, `get_all` returns, each once, the very objects that `get` finds.
* `DS.C57_identities_last` (lean/Verif/Props/History.lean:65) An object keeps its class and its unique id for ever, whatever the library does with it.
* `DS.C57_fit_for_diffs` (lean/Verif/Props/History.lean:71) After any history, two adapters whose classes name fields of children alike are fit for the theorems about diffs.
* `DS.C57_fit_for_syncs` (lean/Verif/Props/History.lean:75) After any history, an adapter, whatever its store, is fit for the theorems about syncs.
* `DS.C57_fit_for_redis` (lean/Verif/Props/History.lean:78) After any history, what is under the keys of a Redis store is as the theorems about Redis stores ask.
* `DS.C57_fit_for_convergence` (lean/Verif/Props/HistoryConv.lean:92) After any history, two adapters that declare the same models and hold alike forests are fit for the theorems about convergence.

## C58 The text of a diff shows exactly the differences (proved)

diff.str() is "(no diffs)" exactly when has_diffs() is false. It reports every create, delete and update anywhere in the diff: the element's type and name and the side that lacks it, or each differing attribute with both values. Nothing else is shown: the text does not depend on elements that neither differ nor contain a difference, on attributes that are equal, nor on the attribute values of elements that only one side has.

*Over:* all diffs of any depth and any ordering methods, all values and value formats, all indents

* `DS.C58_no_diffs` (lean/Verif/Props/Render.lean:10) `str()` of a diff is `(no diffs)` exactly when `has_diffs()` is false.
* `DS.C58_every_difference_shown` (lean/Verif/Props/Render.lean:24) Every create, delete and update anywhere in the diff is reported in the text: which side lacks the element, or each differing attribute with both values.
* `DS.C58_element` (lean/Verif/Props/Render.lean:34) `str()` of one element is its own report, without a margin, followed by the text of what is different below it, indented by two, if anything is; of an element that neither side has, with nothing different below it, the text ends in `(no diffs)`.
* `DS.C58_only_differences_shown` (lean/Verif/Props/Render.lean:43) Nothing else is shown: the text does not depend on elements without differences, on attributes that are equal, nor on the attribute values of elements that only one side has.

## C59 The text of an adapter shows all its contents and changes nothing (proved)

adapter.str() changes no object, store or server content and calls no user method. It shows every object held under a top-level model name and, at any depth, every stored child; a child that is listed but not stored is reported in the text and does not raise. It fails only where the nesting exceeds Python's recursion limit. The text depends only on the contents, not on the kind of store. (Assumes that the stored objects belong to this adapter; an object that was added to two adapters shows its children as the first one has them.)

*Over:* all adapters over local and Redis stores, all contents and nestings, all value formats, all indents

* `DS.C59_str_reads_only` (lean/Verif/Props/RenderAdapter.lean:11) `Adapter.str()` changes nothing: no stored object, no store and no server content, and no user code is called.
* `DS.C59_str_shows_everything` (lean/Verif/Props/RenderAdapter.lean:20) The text shows every object that the adapter holds at the top level or, at any depth, as a child; a child that is listed but not stored is reported and does not make `str()` fail.
* `DS.C59_str_fails_only_on_depth` (lean/Verif/Props/RenderAdapter.lean:44) The only way to fail is Python's recursion limit, and it is not reached when the objects are nested less deep than it.
* `DS.C59_same_contents_same_text` (lean/Verif/Props/RenderAdapter.lean:69) The text is determined by the contents: adapters with the same top-level types and the same contents, whatever their stores, have the same text.
* `DS.Ex.C59_shared_object_shows_other_adapter` (lean/Verif/Props/RenderAdapter.lean:187) why `Owned` is assumed: an object added to a second adapter shows its children as the first adapter has them, so the text of the second adapter shows an object that it does not hold.

## C60 Lookups fail only in the documented ways (proved)

get by unique id returns the stored object or raises ObjectNotFound, get_or_none returns it or None, and neither raises anything else or changes any contents. With a dictionary of identifiers both raise ValueError exactly for a model name that stands for no class of the adapter, and KeyError exactly for a missing identifier, whatever is stored; otherwise they do the same as for the unique id made of the identifier values, and further entries of the dictionary do not matter.

*Over:* all adapters over local and Redis stores, all contents, all model arguments (name or class), all ids and dictionaries

* `DS.C60_by_uid` (lean/Verif/Props/Lookup.lean:77) Looking up by unique id: `get` returns the stored object or raises `ObjectNotFound`, `get_or_none` returns it or `None`; neither raises anything else or changes anything.
* `DS.C60_by_identifiers` (lean/Verif/Props/Lookup.lean:104) Looking up by a dictionary of identifiers. A name that stands for no class is a `ValueError` and a missing identifier a `KeyError`, for `get` and for `get_or_none`, whatever is stored, and nothing changes. Otherwise both do what they do for the unique id that consists of the values of the identifiers; other entries of the dictionary do not matter.

## C61 Calls that succeeded are in effect after the sync, whatever else fails (proved)

When sync_from/sync_to returns, or raises one of the exceptions about object handling, what each successful call asked for is there: a created object is stored under the unique id of its identifiers, with the given values and defaults for the others; an updated object carries the new values and keeps its other values (in a store that keeps the objects themselves); a deleted object is not stored. Later failures, refusals or exceptions undo none of it. Exempt are objects that went along with a deleted object flagged SKIP_CHILDREN_ON_DELETE and, when another kind of exception escapes, the very last call made.

*Over:* all adapters and diffs, all user methods and failure points, all flags, both kinds of store

* `DS.C61_successful_calls_take_effect` (lean/Verif/Props/SyncDone.lean:16) Whatever else fails, and wherever the sync stops: what a call that succeeded asked for is there when the sync returns or raises (for `update`, in a store that keeps the objects themselves). Exempt is what was created or updated and then went along with a deleted object flagged SKIP_CHILDREN_ON_DELETE, and the very last call of a sync that raises another exception than those about object handling.
* `DS.C61_passed_on_updates_take_effect` (lean/Verif/Props/SyncDone.lean:52) For an `update` it does not matter what the method returns or raises afterwards: once it has passed the new values on to `super().update()`, they are there in the end, and a later sync does not try again.
* `DS.C61_all_in_effect` (lean/Verif/Props/SyncDone.lean:67) In particular, when the sync returns or raises an exception about object handling, every call that succeeded is in effect, if no object flagged SKIP_CHILDREN_ON_DELETE is deleted.

## C62 Objects refer to the adapter that holds them (proved)

After any history of calls, the objects that an adapter holds in a local store, and all objects that get, get_all and get_by_uids return from a local or Redis store, have obj.adapter set to an adapter with that store; so have the objects that a sync created. remove(obj) unsets obj.adapter unless it leaves the adapter empty. The program is asked to mind adapters: not to add an object to a local store, or to remove it from a store, while obj.adapter is an adapter with objects in another store, and to call update of a local store with objects of that store only. (Without that it fails: update stores an object with no adapter as it is, and removing an object of one store from another store unsets its adapter.)

*Over:* all finite histories of API calls with arbitrary user methods, failures and exceptions, both kinds of store, any number of adapters

* `DS.C62_stored_objects_refer_back` (lean/Verif/Props/BackRefs.lean:11) `obj.adapter` of an object in an adapter's local store is an adapter with that store, after any history of a program that minds the adapters of objects: whatever was added, updated, removed, loaded and synced, in any order and with any failures.
* `DS.C62_got_objects_refer_back` (lean/Verif/Props/BackRefs.lean:15) The object that `get` returns refers to an adapter with the store it was read from, local or Redis.
* `DS.C62_got_by_uids_refer_back` (lean/Verif/Props/BackRefs.lean:52) The objects that `get_by_uids` returns refer to an adapter with the store they were read from.
* `DS.C62_all_objects_refer_back` (lean/Verif/Props/BackRefs.lean:59) The objects that `get_all` returns refer to an adapter with the store they were read from.
* `DS.C62_fit_for_str` (lean/Verif/Props/BackRefs.lean:84) After such a history an adapter is fit for the theorems about `str()`.
* `DS.C62_removed_objects` (lean/Verif/Props/BackRefs.lean:89) `remove(obj)` unsets `obj.adapter`, unless it leaves the adapter empty (an empty adapter counts as false).
* `DS.Ex.C62_last_removed_object_stays_attached` (lean/Verif/Props/BackRefsEx.lean:36) The last object of a store still refers to the adapter after it was removed.
* `DS.Ex.C62_removed_elsewhere` (lean/Verif/Props/BackRefsEx.lean:42) Why the program has to mind: an object of a local store that is also passed to `remove` of a Redis store loses its adapter, and stays in the local store.
* `DS.Ex.C62_update_does_not_attach` (lean/Verif/Props/BackRefsEx.lean:51) `update` of a local store stores an object that has no adapter as it is.

## C63 What a Redis store finds on the server (proved)

count() of a Redis store is the number of keys on the server that match the glob pattern diffsync:<store id>:*, get_all(model) returns the values of the keys that match diffsync:<store id>:<model>:*, each once, and get_all_model_names() returns what is between the second and the third colon of the keys that match diffsync:<store id>:*, whatever characters the store id and the model name contain (? stands for one character, * for any number, [...] for one of the listed characters and ranges, a backslash quotes). A store whose id and model names have no brackets and backslashes sees all its own objects: what get finds, get_all returns. (Wildcards in a store id make it see objects of other stores too; brackets make get_all and count miss objects that get finds.)

*Over:* all contents of the server, all store ids and model names

* `DS.C63_count` (lean/Verif/Props/RedisScan.lean:203) `count()` of a Redis store is the number of keys on the server that match the pattern `diffsync:<store id>:*`.
* `DS.C63_get_all` (lean/Verif/Props/RedisScan.lean:216) `get_all(model)` of a Redis store returns the values of the keys on the server that match the pattern `diffsync:<store id>:<model>:*`, each once.
* `DS.C63_sees_its_objects` (lean/Verif/Props/RedisScan.lean:244) A Redis store sees all its objects: what `get` finds, `get_all` returns too, if the store id and the model name have no brackets and no backslashes (wildcards and colons do no harm to that).
* `DS.C63_names` (lean/Verif/Props/RedisScan.lean:336) `get_all_model_names()` of a Redis store are the third parts of the keys on the server that match `diffsync:<store id>:*`, i.e. what is between their second and third colons, each once.
* `DS.Ex.C63_wildcards_see_others` (lean/Verif/Props/RedisScanEx.lean:21) A store whose id has wildcards sees objects of other stores as well.
* `DS.Ex.C63_brackets_see_nothing` (lean/Verif/Props/RedisScanEx.lean:34) A store whose id has brackets may see none of its objects.

## C64 Clients of different Redis stores on one server do not disturb each other (proved)

While any number of clients use one Redis server at the same time, each sending its commands one by one, a client that is the only one to write to its store gets the results, and leaves the contents of its store, that it would get and leave alone on the server, in every interleaving and wherever any client stops. The others may be any programs that do not write to keys of that store, in particular clients of stores with other ids (ids and model names free of ':' and glob characters). Alone on the server each method does what it does as one step, so everything proved about single calls carries over.

*Over:* all interleavings of the commands of any number of clients, all programs of the clients, all crash points, all behaviours of SCAN that Redis allows (any order, repeated keys, keys that come and go)

* `DS.C64_methods_stay_within` (lean/Verif/Props/Concurrent.lean:273) Each method of a Redis store sends commands about keys of that store only.
* `DS.C64_isolated` (lean/Verif/Props/Concurrent.lean:300) A client that is the only one to write to its store behaves, in every execution and at every point of it, as if it were alone on the server, and its store has the contents that it would then have. The other clients may be any programs, also ones that read the store.
* `DS.C64_stores_apart` (lean/Verif/Props/Concurrent.lean:308) Clients of different stores do not disturb each other: each gets the result that it would get alone.
* `DS.C64_alone_add` (lean/Verif/Props/RedisSeq.lean:57) Alone on the server, the commands of `add` do what `add` does.
* `DS.C64_alone_update` (lean/Verif/Props/RedisSeq.lean:71) The same for `update`.
* `DS.C64_alone_get` (lean/Verif/Props/RedisSeq.lean:98) The same for `get`.
* `DS.C64_alone_get_all` (lean/Verif/Props/RedisSeq.lean:176) The same for `get_all`.
* `DS.C64_alone_get_by_uids` (lean/Verif/Props/RedisSeq.lean:195) The same for `get_by_uids`.
* `DS.C64_alone_count` (lean/Verif/Props/RedisSeq.lean:221) The same for `count`.
* `DS.C64_alone_model_names` (lean/Verif/Props/RedisSeq.lean:232) The same for `get_all_model_names`.
* `DS.C64_alone_remove` (lean/Verif/Props/RedisSeq.lean:252) The same for `remove`, with and without `remove_children`.

## C65 Concurrent clients of the same Redis store (proved)

While clients use the same store at the same time: get and get_by_uids return each object as it was stored at a moment of the call, or raise ObjectNotFound because it was missing at a moment of the call; get_all returns only such objects and misses none that was there all the time, and raises (ObjectNotFound) only if an object vanished meanwhile; after add or update returns, an equal object was stored at a moment of the call, and add raises ObjectAlreadyExists only if a different object was stored at a moment of the call; removing succeeds only if the object was there at a moment of the call and missing at another. At every moment each object is stored under its own type and unique id. (add is no lock: two clients adding different objects under the same id can both succeed; so can two clients removing the same object.)

*Over:* all interleavings of the commands of any number of clients with any programs, all crash points, all behaviours of SCAN that Redis allows

* `DS.C65_get` (lean/Verif/Props/Concurrent.lean:425) `get` returns what was stored at a moment of the call, or raises `ObjectNotFound` because nothing was.
* `DS.C65_update` (lean/Verif/Props/Concurrent.lean:440) `update` stores the object at a moment of the call.
* `DS.C65_add` (lean/Verif/Props/Concurrent.lean:451) `add` raises nothing but `ObjectAlreadyExists`, and that only if a different object was stored at a moment of the call; otherwise an equal object was stored at a moment of the call.
* `DS.C65_remove_item` (lean/Verif/Props/Concurrent.lean:478) Removing an object succeeds only if there was one at a moment of the call, and leaves none at a later moment; it raises `ObjectNotFound`, and nothing else, if there was none at a moment of the call.
* `DS.C65_get_by_uids` (lean/Verif/Props/Concurrent.lean:545) `get_by_uids` returns one object per id, in order, each as it was stored at a moment of the call, or raises `ObjectNotFound` because one of them was missing at a moment.
* `DS.C65_get_all` (lean/Verif/Props/Concurrent.lean:576) `get_all` returns only objects of the model, each as it was stored at a moment of the call, and misses no object that was there all the time. It raises `ObjectNotFound`, and nothing else, only if an object that was there vanished.
* `DS.C65_keys_right` (lean/Verif/Props/Concurrent.lean:629) Whatever the clients do at the same time, at every moment each object on the server is stored under its own type and unique id.
* `DS.C65_got_what_asked` (lean/Verif/Props/Concurrent.lean:670) So `get` returns an object of the type and with the unique id that it was asked for.
* `DS.C65_methods_proper` (lean/Verif/Props/Concurrent.lean:681) The methods store objects under their own type and unique id.
* `DS.Ex.C65_both_add` (lean/Verif/Props/ConcurrentEx.lean:58) `add` is no lock: two clients that add different objects with the same unique id at the same time may both succeed, and one object is lost.
* `DS.Ex.C65_both_remove` (lean/Verif/Props/ConcurrentEx.lean:71) Two clients that remove the same object at the same time may both succeed.
* `DS.Ex.C65_get_all_may_raise` (lean/Verif/Props/ConcurrentEx.lean:80) `get_all` may raise `ObjectNotFound` when another client removes an object meanwhile.

## C66 What a sync does whatever user code does (proved)

Even if create, update, delete, the progress callback and sync_complete change the adapters in any way while sync_from runs: every create, update and delete call is asked for by an element of the diff and each element gets at most one; if an object and one below it both get a call, either the upper one came first and returned an object, or it is to be deleted and came second; progress is reported as 1, 2, 3, ... and never beyond the number of elements; an exception raised in a call ends the sync with that exception, with no further call and no sync_complete, unless it is an object exception and CONTINUE_ON_FAILURE is set; an exception of the callback ends the sync at once; sync_complete is called at most once, last, and exactly when something was attempted and nothing was raised; and what is returned is the diff that was applied.

*Over:* all user code (arbitrary computations on the adapters), all states, adapters, flags, diff classes and diffs in which only deletions are below deletions

* `DS.C66_calls` (lean/Verif/Props/OpenSync.lean:10) C66. Whatever `create`, `update`, `delete`, the progress callback and `sync_complete` do to the adapters: every call that a sync makes is asked for by an element of the diff, each element gets at most one; if both an object and one below it get a call, either the first came first and returned an object, or it is to be deleted and came second.
* `DS.C66_progress` (lean/Verif/Props/OpenSync.lean:33) C66. Whatever user code does, progress is reported as 1, 2, 3, … out of the number of elements of the diff, and never beyond it.
* `DS.C66_exception` (lean/Verif/Props/OpenSync.lean:51) C66. An exception that user code raises in a call ends the sync at once, unless it is one of the library's object exceptions and CONTINUE_ON_FAILURE is set: it is what `sync_from` raises, nothing else is called and `sync_complete` is not.
* `DS.C66_callback` (lean/Verif/Props/OpenSync.lean:87) C66. A callback that does not return ends the sync at once: the report of progress is the last thing the sync does, and what `sync_from` raises is what the callback raised.
* `DS.C66_complete` (lean/Verif/Props/OpenSync.lean:112) C66. `sync_complete` is called at most once, at the very end and only when something was attempted; and if the sync returns and something was attempted, it was called.
* `DS.C66_returns` (lean/Verif/Props/OpenSync.lean:159) C66. A sync that returns, returns the diff it was made for, unchanged. With a diff supplied, nothing is compared.
* `DS.C66_same_sync` (lean/Verif/Props/OpenSync.lean:176) C66. With user code as the other theorems about syncs suppose it (it decides how each call ends and does not touch the adapters), this is the sync of the other theorems: same result, same stores and objects, same events (but for the recorded ends of calls).

## C67 A client of a Redis store that is killed leaves it consistent (proved)

Whenever a process that uses a Redis store is killed, or loses its connection: during get, get_all, get_by_uids, count or get_all_model_names the contents are as before; during add, update or remove of one object they are as before or as after the call; during remove with remove_children the objects that are gone are the object and some below it, none of them without one that lists it, and everything else is as before. A program that adds (or updates) objects one after the other leaves the first ones stored and none of the others, and running it again ends with the result and contents of an uninterrupted run. Removing with children again does not complete an interrupted removal: it raises ObjectNotFound.

*Over:* all contents of the server, all objects and lists of objects, all points at which the process is killed

* `DS.C67_reads` (lean/Verif/Props/Crash.lean:96) Whenever a client is killed during `get`, `get_all`, `get_by_uids`, `count` or `get_all_model_names`, the server's contents are as before.
* `DS.C67_writes` (lean/Verif/Props/Crash.lean:150) Whenever a client is killed during `add` or `update` of an object or `remove` without children, the server's contents are as before, or the call had ended and they are as after the call.
* `DS.C67_remove` (lean/Verif/Props/Crash.lean:267) Whenever a client is killed during `remove`, with children or without: the objects that are gone are the object itself and some that are below it, none of them without one that lists it; everything else on the server is as before.
* `DS.C67_load_prefix` (lean/Verif/Props/Crash.lean:367) A client that is killed while it adds objects one after the other has added the first ones, and none of the others.
* `DS.C67_load_again` (lean/Verif/Props/Crash.lean:409) Loading objects again, after the first attempt was killed at any time, ends with the same result and the same contents as if the first attempt had not been interrupted. (Values that differ from themselves, as NaN does, are excepted: an object with such a value is refused the second time.)
* `DS.C67_updates_prefix` (lean/Verif/Props/Crash.lean:445) Killed while it updates objects one after the other, a client has updated the first ones, and none of the others.
* `DS.C67_updates_again` (lean/Verif/Props/Crash.lean:456) Updating them all again, after the first attempt was killed at any time, leaves the contents that it would have left without interruption.
* `DS.Ex.C67_remove_not_resumable` (lean/Verif/Props/CrashEx.lean:46) a limit: a removal with children that was killed cannot be completed by calling it again: the object itself is gone, so the call raises `ObjectNotFound`, and children that were still there stay.

## C68 Having no diffs carries over along a chain of adapters (proved)

If a diff between adapters a and b reports nothing and one between b and c reports nothing, a diff between a and c reports nothing, provided that b has the top-level types, child types and attributes that a and c share, no object is excluded from diffs by its model flags, unmatched objects are not skipped, and equality of attribute values is transitive. So syncs can be chained: after b is synced from a and c from b, with all calls successful, a and c agree everywhere and a diff between them reports nothing. (With IGNORE or the SKIP_UNMATCHED flags this fails.)

*Over:* all triples of adapters with any stores and contents (local stores for the syncs), all diff classes and flags; for the syncs, the classes of the destinations make equal values of the attribute values of the objects to be created

* `DS.C68_agreement_transitive` (lean/Verif/Props/Chain.lean:31) If `a` and `b` agree at every place and `b` and `c` do, then `a` and `c` do (for values on which `==` is transitive).
* `DS.C68_no_diffs_transitive` (lean/Verif/Props/Chain.lean:132) No diffs between `a` and `b` and none between `b` and `c`: then there are none between `a` and `c`.
* `DS.C68_syncs_chain` (lean/Verif/Props/Chain.lean:146) Syncs can be chained: after `b` is synced from `a` and then `c` from `b`, with all calls successful, `a` and `c` agree at every place, and a diff between them that returns reports nothing.

## C69 A diff depends on nothing but the contents of the two adapters (proved)

Take two pairs of adapters that hold the same objects under the same model names and unique ids: same class, model flags, identifiers, short name and attributes, and child lists with the same members in any order. Whatever kinds of store they use, in whatever order their objects were loaded, whatever other fields the objects have and whatever diff class is used, the two diffs have the same elements at every depth, up to order, has_diffs(), len(), and every count of summary() including skip are the same, and one diff returns exactly if the other does. Loading objects with new keys into an adapter in any order, local or Redis, never fails, gives the same contents, and leaves every other store as it was.

*Over:* all pairs of source and target adapters with equal contents (of any size, depth and kind of store), all flags, all diff classes that only reorder, all recursion limits; all sets of objects to load, in every order

* `DS.C69_same_diff` (lean/Verif/Props/SameContents.lean:17) Two pairs of adapters with the same contents, in whatever kind of store, whatever order the objects were loaded in and the child lists are in: both diffs have, at every depth, the same elements, up to order.
* `DS.C69_same_counts` (lean/Verif/Props/SameContents.lean:25) `has_diffs()`, `len()`, the four counts of `summary()` and its skip count are then the same.
* `DS.C69_returns_alike` (lean/Verif/Props/SameContents.lean:86) Given the same recursion limit, one diff returns exactly if the other does.
* `DS.C69_load` (lean/Verif/Props/SameContents.lean:211) Loading objects that are new to an adapter, one after the other, never fails, in whatever order and kind of store; the contents are then exactly what was there before and the objects loaded, and those of every other store are as before.
* `DS.C69_load_order` (lean/Verif/Props/SameContents.lean:222) Hence two adapters with the same contents that load the same objects, in any orders and into any kinds of store, have the same contents again.

## C70 What a successful sync leaves is determined by the contents it started from (proved)

After a sync in which every call of user code succeeds, the destination is exactly this: objects that take part in the comparison and are missing in the source are gone; those missing in the destination are there as instances of the destination's class with the source's identifiers and attributes and defaults otherwise; those present on both sides have the source's value for each attribute that both have with different values, and every other field as before; objects that take no part are as they were, except that exactly those below a deleted object flagged SKIP_CHILDREN_ON_DELETE go along with it; and an object lists a child exactly if both are there and either side listed it before, once. So two such syncs from equal contents, with the same flags, leave equal contents, whatever the diff class, the user's code, the adapters' names, the loading order and the source's kind of store.

*Over:* all source and local destination adapters of any size and depth that can be reconciled, all flags, all diff classes that only reorder, all user code, all recursion limits

* `DS.C70_others_exact` (lean/Verif/Props/Along.lean:32) Exactly what happens, in a sync in which all calls succeed, to objects of the destination that take no part in the comparison: those below an object that is deleted and flagged SKIP_CHILDREN_ON_DELETE are gone; all others are there, with their class, flags, values and children.
* `DS.C70_same_outcome_always` (lean/Verif/Props/Along.lean:92) So two syncs in which all calls succeed, from sources with the same contents into destinations with the same contents and classes, leave the same contents (C70_same_outcome), also when objects go along that take no part.
* `DS.C70_outcome` (lean/Verif/Props/Outcome.lean:13) After a sync in which all calls succeed the contents of the destination are determined by what source and destination held before: objects that take part and are missing in the source are gone, those missing in the destination are there with the source's identifiers and attributes, those of both have the source's values where they differed and are otherwise as they were; objects that take no part are as they were, unless one above them was deleted under SKIP_CHILDREN_ON_DELETE; and every child list has the children of both sides that are there.
* `DS.C70_outcome_to` (lean/Verif/Props/Outcome.lean:27) The same of `sync_to`.
* `DS.C70_rest_untouched` (lean/Verif/Props/Outcome.lean:34) When no object below one flagged SKIP_CHILDREN_ON_DELETE is excluded from diffs by its own flags, all objects that take no part are as they were.
* `DS.C70_same_outcome` (lean/Verif/Props/Outcome.lean:43) Two syncs in which all calls succeed, from sources with the same contents into destinations with the same contents and classes, leave the same contents, whatever the diff classes, the adapters' names, the user's code, the order in which objects were loaded or are listed, the identities of the objects, the recursion limits and the stores of the sources.

## C71 Retrying a sync leads where an undisturbed sync leads, but for orphans (proved)

A sync is tried any number of times with the same flags; in each attempt calls of user code may fail, raise, or end it half-way. If an attempt in which every call succeeds follows, the destination then holds what it would hold had the first attempt succeeded: the same objects with the same classes, flags, identifiers, short names, attributes and children. The only exceptions are objects of the destination that the source does not have: one of them may be left, unchanged, if it is below an object that an earlier attempt deleted; no later sync with these flags deletes it. There are no exceptions if objects missing in the source are not to be deleted (SKIP_UNMATCHED_DST), or if all objects that are missing in the source either have no children or are flagged SKIP_CHILDREN_ON_DELETE: what is below such an object is, after any attempts, there as a whole with it or gone as a whole with it. Every object of the source that takes part is in the destination in the end, with no differing attribute.

*Over:* all source and local destination adapters of any size and depth that can be reconciled and whose destination classes do not default to IGNORE, all flags, all numbers of attempts, all user code and diff classes in each attempt, all points at which attempts end; the classes of the destination make equal values of the attribute values of the objects to be created (otherwise see C72)

* `DS.C71_retries` (lean/Verif/Props/Retry.lean:12) A sync that was tried any number of times, in which calls failed, raised or ended it half-way, and that succeeds in the end, leaves what it would have left had it succeeded at once; but for objects of the destination that the source does not have and that are still there, below an object that an earlier attempt has deleted. Those take part in no further sync.
* `DS.C71_retries_same` (lean/Verif/Props/Retry.lean:41) When objects missing in the source are not to be deleted, or only objects without children are missing in the source, nothing is left over: the two destinations have the same contents.
* `DS.C71_source_arrives` (lean/Verif/Props/Retry.lean:74) Whatever failed in earlier attempts, an object of the source that takes part is in the destination after the one that succeeds, and the diff finds no differences among the objects of the source.
* `DS.C71_whole` (lean/Verif/Props/RetryWhole.lean:12) However often a sync is tried and whatever fails, what is below an object that only the destination has, and that takes along what is below it, is there as a whole with it, or gone as a whole with it.
* `DS.C71_retries_whole` (lean/Verif/Props/RetryWhole.lean:19) So nothing is left over if all objects with children that only the destination has take along what is below them: a sync that was tried any number of times and succeeds in the end leaves what it would have left had it succeeded at once.

## C72 Classes that alter the values they are given: two syncs converge (proved)

A new instance holds what pydantic makes of the values given for its fields (an int of a string of digits, say), an updated instance the values as given. So after a sync in which all calls succeed an object can still differ from the source: exactly those can that the sync created, in exactly those attributes of which their class made another, unequal value. A second such sync with the same flags makes only update calls, on such objects and with such attributes, and then diff_from reports no diffs; a third makes no call. (If identifiers are altered, syncs need not converge at all: the object is created under another unique id, and the next sync raises ObjectAlreadyExists.)

*Over:* all source and local destination adapters that can be reconciled, all flags, all ways in which classes parse attribute values, all diff classes that only reorder, all user code whose calls succeed

* `DS.C72_what_remains` (lean/Verif/Props/Parse.lean:80) What a sync in which all calls succeed leaves to do. An object that takes part is then on both sides; it differs in an attribute exactly if the sync has created it and its class has made another value of the source's.
* `DS.C72_second_sync_converges` (lean/Verif/Props/Parse.lean:124) Two syncs in succession with the same flags, in both of which all calls succeed, converge: `diff_from` then reports no diffs. Nothing is assumed about what the classes of the destination make of attribute values.
* `DS.C72_second_calls` (lean/Verif/Props/Parse.lean:141) All that the second sync does is to update objects that the first one created: it sets the attributes that their classes altered, to the source's values.
* `DS.C72_third_sync_idle` (lean/Verif/Props/Parse.lean:197) A third sync makes no call and changes nothing.
* `DS.Ex.C72_one_sync_is_not_enough` (lean/Verif/Props/ParseEx.lean:164) One sync is not enough: after a sync in which all calls succeed there are diffs; after the second there are none.
* `DS.Ex.C72_parsed_identifier` (lean/Verif/Props/ParseEx.lean:174) If the class reads an identifier as another value, syncs need not converge: the object is created with another unique id than it is looked for under; the next sync, and the one after it, raise `ObjectAlreadyExists`, after user code has reported success.

## C73 The comparison decides the calls, whatever user code does meanwhile (proved)

While sync_from runs, create, update, delete, sync_complete and the progress callback may do anything to both adapters: add, remove or change objects, raise. They can keep calls from being made, but cannot cause others or alter arguments. Every create call gets the type, identifiers and attributes of an object that the source had when the sync started and that took part in the comparison, with none in the destination at its place. Every update call gets exactly the attributes, at least one, in which an object of the source and the one of the destination at its place then differed, with the source's values. For each delete call there was an object in the destination at a compared place where the source had none. With SKIP_UNMATCHED_SRC there is no create call, with SKIP_UNMATCHED_DST no delete call.

*Over:* all adapters that can be compared, all flags, all diff classes, all user code, over every effect it may have on the adapters, and syncs that fail or return

* `DS.C73_create` (lean/Verif/Props/OpenArgs.lean:120) A create call gets the identifiers and attributes that an object of the source had when the sync started; this object took part in the comparison, and there was none in the destination at its place. With SKIP_UNMATCHED_SRC there is no create call.
* `DS.C73_update` (lean/Verif/Props/OpenArgs.lean:154) An update call gets exactly the attributes that an object of the source and the one of the destination at its place had with different values when the sync started, with the source's values; there is at least one.
* `DS.C73_delete` (lean/Verif/Props/OpenArgs.lean:183) For each delete call there was an object of the destination that took part in the comparison, and none in the source at its place. With SKIP_UNMATCHED_DST there is no delete call.
* `DS.C73_plain` (lean/Verif/Props/OpenArgs.lean:208) All this applies to the sync of `Model.Syncer`, with any adapters and any class of model: where it makes a call, the sync with the same user code in the sense of C66 makes the same call.

## C74 Work on one store leaves the others alone (proved)

Take two adapters with different stores, local or Redis (two labels on one server count as different), and a program that does not put one object into two local stores. Adding, updating, removing, get_or_*/update_or_* helpers, loading, changing objects of the first adapter, and syncs into it, with any user methods, any supplied diff and any failures, any number of them in any order, leave the second adapter with exactly the objects, values, children and order it had; a local store moreover keeps the very same objects. The two adapters never come to hold the same object. In particular a sync never changes its source.

*Over:* all reachable worlds, all adapters on all pairs of stores, all finite sequences of API calls about other stores, all user methods and failures

* `DS.C74_isolated` (lean/Verif/Props/Isolated.lean:76) Whatever a program does with other stores, in any order, any number of times and with any failures, an adapter holds what it held.
* `DS.C74_same_objects` (lean/Verif/Props/Isolated.lean:83) Meanwhile a local store holds the very same objects.
* `DS.C74_separate` (lean/Verif/Props/Isolated.lean:93) Two adapters with different stores never come to hold the same object.
* `DS.C74_sync` (lean/Verif/Props/Isolated.lean:115) No sync changes its source, or any adapter but the destination: whatever diff is supplied, if any, and whatever fails.
* `DS.C74_converges` (lean/Verif/Props/Isolated.lean:121) So after any history two adapters with different stores, which declare the same models and hold alike forests, converge.
* `DS.Ex.C74_shared_object_changes_in_both` (lean/Verif/Props/IsolatedEx.lean:36) Why the program has to mind: an object that was added to two local stores is updated in both by a call about one of them.

## C75 After a sync, get_status() says what that sync did (proved)

When a sync returns or raises, each object in a local destination store for which create, update or delete was called says what that one call left: the status and message that the user's method set, or SUCCESS with the message of the base method if that was called, or UNKNOWN. It never shows what an earlier sync left, nor the status of another object's call. An object for which no such call was made was in the store before, and its status is what it was or, if the sync came by, UNKNOWN with an empty message. An object that the diff has no element for keeps its status.

*Over:* all adapters with a local store, all diffs whose elements are about distinct objects, all flags, all user methods (what they return, raise and set), and every point where a sync may stop

* `DS.C75_status_after_call` (lean/Verif/Props/Status.lean:16) An object of a local destination store that `create()`, `update()` or `delete()` was called for, and that is in the store when the sync returns or raises, says what that call left: what the user's method set, or SUCCESS if the base method was called, or UNKNOWN - never what an earlier sync left.
* `DS.C75_status_without_call` (lean/Verif/Props/Status.lean:27) An object for which no such call was made was there before; its status is what it was, or UNKNOWN if the sync came by.
* `DS.C75_status_outside_diff` (lean/Verif/Props/Status.lean:43) An object that the diff has no element for keeps its status, if it is still there.

## C76 A new adapter is empty, named and separate; a new Redis store is connected (proved)

A new adapter without a given store contains nothing, and constructing it changes no other adapter's contents; constructed over an existing store it has that store's contents at once. str(adapter) is its type (by default the name of the class) or, if a different name was given, the type and the name in quotes, so that adapters of one class with different names have different texts. RedisStore() returns exactly if the server named by its arguments answered: the URL's if a URL is given, else the host's; it raises ValueError if both a URL and a host with a non-zero port are given and ObjectStoreException if neither is given or the server does not answer. Its keys carry the given store id or, if none is given, a new one.

*Over:* all names, types, classes, states of other adapters and stores, all arguments and all behaviours of the network

* `DS.C76_text` (lean/Verif/Props/Init.lean:59) `str(adapter)` is the type alone if no name was given or the name is the type; otherwise the type and the name in quotes. `repr(adapter)` is the same in angle brackets.
* `DS.C76_text_tells_names` (lean/Verif/Props/Init.lean:76) Among adapters of one class, `str()` tells different names apart.
* `DS.C76_new_adapter_empty` (lean/Verif/Props/Init.lean:96) A new adapter without a store of its own choice is empty, and no other adapter notices (`sid` is a new store).
* `DS.C76_given_store` (lean/Verif/Props/Init.lean:116) An adapter constructed over an existing store changes nothing and has, at once, the contents of every adapter with that store.
* `DS.C76_redis_connected` (lean/Verif/Props/Init.lean:125) A Redis store is constructed only if the server answered, at the URL if one was given and at the host otherwise; its keys are those of the given id, or of a new one.
* `DS.C76_redis_available` (lean/Verif/Props/Init.lean:149) And it is constructed whenever the server named answers, unless a URL and a host with a port are given together.
* `DS.C76_redis_refused` (lean/Verif/Props/Init.lean:159) When it is not: its own `ValueError` exactly if both a URL and a host with a port were given; `ObjectStoreException` if neither was given or the server named did not answer; any other exception comes from the client library.
* `DS.C76_port_zero` (lean/Verif/Props/Init.lean:196) The check for a URL and a host given together looks at the port as well: with port 0 both are accepted, and the host is ignored.

## C77 A sync between reconcilable adapters raises nothing of its own (proved)

When source and destination can be reconciled (forests of stored objects within the recursion limit, of classes that fit one another; the destination in memory or in a Redis store), sync_from and sync_to raise only what a create, update or delete method of the user raised; that call was the last one, and under CONTINUE_ON_FAILURE the exception is not one of ObjectNotCreated, ObjectNotUpdated, ObjectNotDeleted. So the sync returns whenever no method raises, even if any number of them return None or do not apply their change, and under CONTINUE_ON_FAILURE whenever they raise only those three. No action is refused: every outcome record follows a call.

*Over:* all reconcilable contents of source and destination, in memory or in Redis stores, all flags, all diff classes that reorder, and all behaviours of the user's methods, including arbitrary sequences of failures

* `DS.C77_raises_only_user_exceptions` (lean/Verif/Props/Escape.lean:12) Between adapters that can be reconciled, a sync that raises passes on what the user's own method raised, and that method's call was the last one; under CONTINUE_ON_FAILURE the exception is none of those announced for failed actions. Whatever the methods do before that, neither the comparison, the recursion, the construction of objects nor the updates of child lists and of the store raise anything.
* `DS.C77_raises_only_user_exceptions_to` (lean/Verif/Props/Escape.lean:21) The same of `sync_to`.
* `DS.C77_returns` (lean/Verif/Props/Escape.lean:29) So the sync returns the diff whenever no method raises, or, under CONTINUE_ON_FAILURE, when they raise nothing but the exceptions announced for failed actions, however many of them fail.
* `DS.C77_nothing_refused` (lean/Verif/Props/Escape.lean:39) And no action is refused: every record of an attempt follows at once the call it is about.
* `DS.C77_redis_raises_only_user_exceptions` (lean/Verif/Props/EscapeRedis.lean:93) A sync into a Redis store, between adapters that can be reconciled, passes on what the user's own method raised and raises nothing else; that method's call was the last one, and under CONTINUE_ON_FAILURE the exception is none of those announced for failed actions.
* `DS.C77_redis_raises_only_user_exceptions_to` (lean/Verif/Props/EscapeRedis.lean:102) The same of `sync_to`.
* `DS.C77_redis_returns` (lean/Verif/Props/EscapeRedis.lean:110) So a sync into a Redis store returns the diff whenever no method raises, or, under CONTINUE_ON_FAILURE, when they raise nothing but the exceptions announced for failed actions.
* `DS.C77_redis_nothing_refused` (lean/Verif/Props/EscapeRedis.lean:120) And no action on a Redis store is refused: every record of an attempt follows at once the call it is about.

## C78 What a sync leaves to do is exactly what failed in it (proved)

Let source and destination be such that they can be reconciled. After a sync_from or sync_to, whether it returned or raised and whatever create, update and delete did: the objects a comparison with the same flags finds to create are those found before for which no create call returned an object; the attributes it finds to differ are those found before, of objects for which no update call passed the new values on to super().update(), whatever that call then returned or raised; the objects it finds to delete are those found before for which no delete call returned an object, except those below an object whose delete call did. The next diff consists of exactly these. The same holds after any number of syncs.

*Over:* all reconcilable contents with destination classes that do not default to IGNORE, all flags, all diff classes that reorder, all behaviours of user code, any number of syncs with any ends

* `DS.C78_left_to_create` (lean/Verif/Props/Remains.lean:11) After a sync, however it ends and whatever failed in it: the objects that a comparison with the same flags finds to create are those that were to be created before and for which no create call returned an object.
* `DS.C78_left_to_update` (lean/Verif/Props/Remains.lean:33) The attributes that a comparison finds to differ are those that differed before, of objects for which no update call passed the new values on to `super().update()`; whether that call then returned `None` or raised something makes no difference.
* `DS.C78_left_to_delete` (lean/Verif/Props/Remains.lean:86) The objects that a comparison finds to delete are those that were to be deleted before and for which no delete call returned an object, except that what is below an object whose delete call returned one is no longer found: it went along, or is left over unlisted.
* `DS.C78_diff_says_what_to_do` (lean/Verif/Props/Remains.lean:120) What is to be done is what the computed diff says: its elements to create and to delete are the objects to create and to delete, and its elements to update give the attributes to set.
* `DS.C78_next_diff` (lean/Verif/Props/Remains.lean:155) So the next diff is the last one without what has been done: after a sync, however it ends, a diff with the same flags has an element to create, to update or to delete for exactly those objects for which the diff before the sync has one and no call of that kind did its work; of the elements to delete, also those below a deleted object have gone.
* `DS.C78_left_after_any_tries` (lean/Verif/Props/Remains.lean:178) The same of any number of syncs, each ending as it may: what is left to do in the end is what was to be done in the beginning and no call in any of them has done.

## C79 Two syncs merge two adapters (proved)

Let two adapters of the same models, in separate local stores, be such that they can be reconciled, with no object excluded from diffs by its own flags. Sync b from a with SKIP_UNMATCHED_DST and then a from b with no flags (or any without SKIP_UNMATCHED_SRC). If all calls succeed, both syncs return and both adapters hold the union: every compared object of a is in both, in a with the values it had and in b with equal attributes; every compared object that only b had is in both, in b as it was and in a with the same identifiers and attributes; children are those listed on either side; everything else is as it was. Neither sync makes a delete call, and the second makes only create calls, for objects a did not have. If the second sync compares everything, diffs in both directions are then empty.

*Over:* all contents of the two adapters that can be reconciled and are reached by any history of public operations, all diff classes that reorder, all other flags

* `DS.C79_merge` (lean/Verif/Props/Merge.lean:218) When `b` is synced from `a` with SKIP_UNMATCHED_DST and then `a` from `b` (with or without that flag), and all calls succeed, both syncs return and both adapters hold the union of what they held: every object of `a`, with the values it had in `a`, and every object that only `b` had, as it was in `b`; nothing is lost on either side.
* `DS.C79_calls` (lean/Verif/Props/Merge.lean:280) Neither sync deletes anything, and the second one, whatever its calls return, only creates: it makes no update call, and creates only objects that `b` had and `a` had not.
* `DS.C79_in_sync` (lean/Verif/Props/Merge.lean:337) After the two syncs, if the second one compares all objects, diffs that compare all objects return in both directions and report nothing.

## C80 What constructors, update and load_from_dict make of the values they are given (proved)

A model constructed with keyword arguments has exactly the fields of its class: each holds what the field's annotation reads from the value given, or the default; if a required field is missing or a value is refused, ValidationError is raised. load_from_dict with any data adds to the adapter one such instance per entry of a declared type, top level types first, in order, until an entry is refused (ValidationError) or its unique id is taken (ObjectAlreadyExists); what was added before stays, nothing that was stored is replaced, and no other adapter changes. obj.update(attrs) sets exactly the given attributes, to the values as given (they are not read by the annotation), and sets the status; with an unknown attribute it raises ValueError with those before it set.

*Over:* all model classes that pydantic and diffsync accept, all annotations, all keyword arguments, all data dictionaries of any size and all adapter contents

* `DS.C80_constructor` (lean/Verif/Props/Load.lean:35) A constructor given keyword arguments gives exactly the instance that its class reads from them; if there is none, it raises `ValidationError`.
* `DS.C80_load_from_dict` (lean/Verif/Props/Load.lean:156) `load_from_dict` with any data into an adapter with any contents adds one instance for each entry, in order, up to the first entry for which that is not possible: one whose values the class refuses (`ValidationError`), or one whose unique id is taken (`ObjectAlreadyExists`). Nothing that was stored is replaced, what was added stays, and no other adapter is touched.
* `DS.C80_update` (lean/Verif/Props/Load.lean:285) `obj.update(attrs)` sets exactly the given attributes, to the values as they are given, and says so in the status; it touches no other object and no store.
* `DS.C80_update_unknown` (lean/Verif/Props/Load.lean:302) If one of the attributes is not a field of the class, `obj.update(attrs)` raises `ValueError` with the attributes before it set and the rest, and the status, as they were.
* `DS.C80_new_status` (lean/Verif/Props/NewStatus.lean:84) A new object that `get_or_instantiate` or `update_or_instantiate` makes has status `SUCCESS` and no message; on any store.
* `DS.C80_load_status` (lean/Verif/Props/NewStatus.lean:112) So have the objects that `load_from_dict` makes, on any store; those that were there keep theirs.

## C81 A diff with any progress callback (proved)

Whatever a progress callback given to diff_from / diff_to does - read or change the adapters, keep state, raise - it is called with strictly increasing positive current values and one constant total, the number of objects in the two stores when the diff began; when the diff returns, the last value is the number of models processed. If a call raises, the diff raises that very exception, makes no further call and does nothing more. A callback that only looks (leaves existing objects and stores alone) does not influence the diff: the calls and the result are those of the diff without callback, unless a call raises, in which case the calls made are the first of those; and no adapter, object or Redis data is changed.

*Over:* all callbacks (arbitrary computations on the state of the program, deterministic given that state), all adapter contents, local or Redis stores, all flags

* `DS.C81_any_callback` (lean/Verif/Props/DifferOpen.lean:14) Whatever the callback does, it is called with strictly increasing positive `current` values and one constant `total`, the number of objects in the two stores when the diff began. Every call returned, or the last one raised; in that case the diff raises the same exception, and does nothing more: the callback left the world as it is. If the diff returns, the last value is the number of models processed.
* `DS.C81_looking_callback` (lean/Verif/Props/DifferOpen.lean:52) A callback that only looks does not influence the diff: with it, the diff makes the same calls and ends as it does without callback, unless a call of the callback raises; then the calls up to that one are made and the diff raises the exception of the callback. In either case the contents of every adapter, every object that existed and the Redis data are as they were.
* `DS.C81_quiet_callback` (lean/Verif/Props/DifferOpen.lean:74) In particular, a callback that only looks and never raises is as good as none.
* `DS.C81_sync_given` (lean/Verif/Props/NewStatus.lean:167) `sync_from(source, diff=d, callback=cb)` is exactly the sync that the claims about arbitrary user code speak of, if `d` has elements. If `d` is empty it is passed over, whatever its class: the diff is computed as without the argument.
* `DS.C81_sync` (lean/Verif/Props/SyncCallback.lean:34) What `sync_from(source, callback=cb)` without `diff` argument is: the diff is computed with the callback; if that raises, the sync raises the same and nothing more happens; if the diff is empty it is returned, and only the counters of the syncer are reset; otherwise the rest is exactly `sync_from(source, diff=d, callback=cb)` from there, of which the claims about syncs with arbitrary user code speak.
* `DS.C81_sync_not_begun` (lean/Verif/Props/SyncCallback.lean:76) If a call of the callback raises while `sync_from` computes the diff, no CRUD method has been called; and with a callback that only looks, nothing that was stored has changed.
* `DS.C81_sync_quiet` (lean/Verif/Props/SyncCallback.lean:95) With a callback that only looks while the diff is computed and does not raise, the diff that `sync_from` applies is the one `diff_from` gives.

## C82 A diff computed while other clients write to the Redis stores (proved)

diff_from, when one or both adapters have a Redis store that other processes write to meanwhile, sends only commands that read. If it returns, its elements report, one for one, distinct objects at the top: each side of an element is what was stored under that type and unique id at some moment of the diff (or nothing, if nothing was stored at some moment); the elements below are those for the children that these objects list, with objects that were stored at some moment, and so on at all depths; nothing that the flags leave in is missing that was stored all the time or that a reported object lists. If it raises ObjectNotFound, some object was stored at one moment and not at another, or a listed child was missing at some moment; other exceptions have the reasons they have without concurrency, in objects stored at some moment. If nobody writes to the two stores, the diff describes their contents, whatever happens to other stores; alone on the server it is what diff_from computes. The diff need not describe any single moment, and may raise ObjectNotFound although both stores are fine at every moment.

*Over:* all numbers of clients running any programs of commands, all interleavings of commands, all answers of SCAN that Redis permits, all contents, all flags, local and Redis stores in any combination

* `DS.C82_diff` (lean/Verif/Props/DiffCmd.lean:12) Whatever the other clients do, and in whatever order the server takes the commands: the elements of the diff report, one for one, distinct places at the top; each side of a place is what was stored there at some moment of the diff (nothing, if nothing was), the places below are those that these objects list, with objects that were stored there at some moment, and so on down; nothing that the flags leave in is missing that was there all the time, or that an object listed.
* `DS.C82_raises` (lean/Verif/Props/DiffCmd.lean:19) And it raises only for a reason: `ObjectNotFound` because an object was there at one moment and not at another, or because an object that was read listed a child that was missing at some moment; the other exceptions for the reasons that a diff has on its own, found in objects that were stored at some moment.
* `DS.C82_reads_only` (lean/Verif/Props/DiffCmd.lean:104) A diff sends no command that writes, whatever the server answers: it disturbs no other client.
* `DS.C82_sound` (lean/Verif/Props/DiffCmd.lean:114) If the clients store objects under their own type and unique id only, as the methods of the store do, then this is what is found at every moment.
* `DS.C82_undisturbed` (lean/Verif/Props/DiffCmd.lean:233) If the two adapters hold the same all the time, then the diff describes what they hold, whatever else happens on the server.
* `DS.C82_steady` (lean/Verif/Props/DiffCmd.lean:294) An adapter keeps its contents when no client writes to its store, whatever they do to other stores; and one in local memory does so anyway.
* `DS.C82_alone` (lean/Verif/Props/DiffCmd.lean:537) Alone on the server, the commands of a diff give what `diff_from` gives, for adapters with stores of either kind, and leave the server as it is.
* `DS.Ex.C82_mixed` (lean/Verif/Props/DiffCmdEx.lean:232) A diff may mix moments: here the other client adds the site `lax` and then changes `d1`; the diff knows of the change, but not of the site. It is what `diff_from` gives for none of the contents that the server had. The hypotheses of `C82_diff` hold.
* `DS.Ex.C82_torn` (lean/Verif/Props/DiffCmdEx.lean:265) A diff may raise `ObjectNotFound` although the child was there when the parent that lists it was read: another client removes `d2` meanwhile.

## C83 A sync from a source that other clients write to while it is compared (proved)

When a diff is computed by diff_from while other processes write to the source's Redis store, and then handed to sync_from of a destination with a local store, every create call gets the identifiers and all the attributes of one object that the source stored at some moment of the diff; every update call is made on an object the destination stores, with exactly the attributes, and the values, in which an object of the same type and unique id, stored by the source at some moment, differs from it; every delete call is made on an object the destination stores for which there is a reason: it is a top-level object that the source did not store at some moment, or an object of the destination lists it which the source stored at some moment without listing it, or which is itself gone in this sense. So no call invents or mixes the data of two versions of an object, though different calls may rest on different moments.

*Over:* all numbers of clients running any programs of commands, all interleavings, all answers of SCAN that Redis permits, all contents, flags, CRUD implementations and their outcomes

* `DS.C83_create` (lean/Verif/Props/SyncSeen.lean:199) A create call of a sync whose diff was computed while other clients wrote to the source gets the identifiers and attributes of an object that the source stored at some moment of the diff, all of one and the same moment.
* `DS.C83_update` (lean/Verif/Props/SyncSeen.lean:228) An update call is made on an object that the destination stores, and gets exactly the attributes in which it differs from an object with the same type and unique id that the source stored at some moment of the diff, with the values of that object.
* `DS.C83_delete` (lean/Verif/Props/SyncSeen.lean:277) A delete call is made on an object that the destination stores, and for a reason: it is a top-level object and the source stored no such object at some moment of the diff; or an object of the destination lists it, which the source stored at some moment without listing it, or which is gone itself in this sense.
* `DS.Ex.C83_mixed` (lean/Verif/Props/SyncSeenEx.lean:81) A sync with such a diff: `d1` becomes a spine, `d2` and `atl` are created, `old` and `d9` deleted; `lax`, which was added before `d1` was changed, is not created. All the hypotheses of the theorems hold.

## C84 The list helpers (proved)

intersection(l1, l2) is l1 without the entries that are not in l2, in the order and with the repetitions of l1. symmetric_difference(l1, l2) has exactly the entries that are in one list and not in the other, each once, in ascending order, and does not depend on the order of its arguments. (The differ takes the types to compare, and the order in which it compares and counts them, from these.)

*Over:* all pairs of lists of type names, with repetitions

* `DS.C84_intersection` (lean/Verif/Props/ListUtils.lean:33) `intersection(l1, l2)` is `l1` without the strings that are not in `l2`: same order, same repetitions.
* `DS.C84_symmetric_difference` (lean/Verif/Props/ListUtils.lean:44) `symmetric_difference(l1, l2)` has exactly the strings that are in one of the lists but not in the other, each once, in ascending order.
* `DS.C84_symmetric` (lean/Verif/Props/ListUtils.lean:65) It does not matter in which order the lists are given.

## C85 Diffs made by hand (proved)

However Diff and DiffElement objects were made and filled by Diff(), DiffElement(), add_attrs(), add() and add_child(): get_children() yields exactly the elements that were added, by type in the order in which the types first occurred, and in the order of the calls within a type; add raises ObjectAlreadyExists exactly if an element with this type and name is there already, and then changes nothing. len(), summary(), has_diffs() and str() are those of the tree of the elements below, if there is one, even if an element was added in several places. There is one exactly if no element was put below itself; otherwise len() and summary() end with RecursionError. Every tree in which siblings differ in type or name can be made.

*Over:* all histories of calls on any number of diff and element objects, with shared elements and cycles, all recursion limits

* `DS.C85_children` (lean/Verif/Props/DiffRef.lean:25) `get_children()` yields the elements that were added, group by group: the groups in the order in which their first element was added, the elements of a group in the order in which they were added. `groups()` are the types of these elements.
* `DS.C85_add` (lean/Verif/Props/DiffRef.lean:31) `add` raises `ObjectAlreadyExists` exactly if an element with the same type and name was added before, and then changes nothing; otherwise it changes no other diff and no element.
* `DS.C85_distinct` (lean/Verif/Props/DiffRef.lean:40) So no two elements of a diff have the same type and name, and the one that was there first stays.
* `DS.C85_add_attrs` (lean/Verif/Props/DiffRef.lean:53) `add_attrs` replaces the sides that are given and keeps the others; everything else of the element, all other elements and all diffs stay.
* `DS.C85_len_summary` (lean/Verif/Props/DiffRef.lean:94) `len` and `summary` of an element that is a tree are those of the tree, if the recursion limit permits its depth; otherwise they raise `RecursionError`.
* `DS.C85_has_diffs` (lean/Verif/Props/DiffRef.lean:125) `has_diffs()` of an element that is a tree is that of the tree, if the recursion limit permits its depth.
* `DS.C85_tree_iff` (lean/Verif/Props/DiffRef.lean:611) An element is a tree exactly if neither it nor an element beneath it was put beneath itself.
* `DS.C85_cycle` (lean/Verif/Props/DiffRef.lean:616) If one was, `len`, `summary` and `str` raise `RecursionError`, whatever the limit.
* `DS.C85_has_diffs_any` (lean/Verif/Props/DiffRef.lean:637) `has_diffs()` of any element, a tree or not: `True` only if the element or one beneath it differs itself, `False` exactly if it is a tree that the recursion limit permits and in which none differs; otherwise it raises `RecursionError`.
* `DS.C85_str` (lean/Verif/Props/DiffRef.lean:660) `str()` of an element that is a tree is that of the tree, if the recursion limit permits its depth; otherwise it raises `RecursionError`.
* `DS.C85_new` (lean/Verif/Props/DiffRef.lean:673) A new element has the type, name and keys that are given and the names that are given for the sides, otherwise `"source"` and `"dest"`; it has neither side, and a `child_diff` of its own, which is empty.
* `DS.C85_every_tree` (lean/Verif/Props/DiffRef.lean:826) Every tree in which no two siblings have the same type and name can be made by hand, next to whatever objects there are, which do not change; and an element that was made is a tree of this kind or no tree at all.
* `DS.C85_add_tree` (lean/Verif/Props/DiffRef.lean:837) `add` to a diff of trees is `add` of the tree.

## C86 A sync into a Redis store that is killed (proved)

sync_from into an adapter whose store is on a Redis server, when its process is killed between any two commands to the server, leaves the server as it would be if the sync had not been killed but the CRUD methods had raised an exception (not an ObjectCrudException) at some call: the effects of all calls before are there, and none of that call or later ones; or as it is at the end of the sync. The one exception is the deletion of an object flagged SKIP_CHILDREN_ON_DELETE, of which a part may have been done: the object is gone and some of those that are removed along with it, each after one that lists it. So what is stored after the kill was stored before exactly like that, or the diff creates it; what was stored before is still there unless the diff deletes it or it goes along with a deleted object that is flagged; and other stores on the server are untouched. Objects left over by a removal that was killed half-way are not removed by another sync.

*Over:* all diffs, contents, flags, CRUD implementations and outcomes, all kill points, local and Redis sources, all orders in which SCAN answers

* `DS.C86_alone` (lean/Verif/Props/SyncKilled.lean:11) A sync into a Redis store as a sequence of commands, if nothing interrupts it, is the sync: it ends with the same result or exception, memory and contents of the server.
* `DS.C86_killed` (lean/Verif/Props/SyncKilled.lean:24) A sync into a Redis store that is killed between any two commands leaves the server as a sync does that was not killed, but whose user code gave up at some call (or that ended): the effects of a call are there for all calls before and for none after, except that of the objects that are removed along with one that is flagged SKIP_CHILDREN_ON_DELETE a part may be left.
* `DS.C86_adds_and_removes` (lean/Verif/Props/SyncKilled.lean:168) Wherever a sync into a Redis store is killed, what is stored afterwards was stored before exactly like that (same values, same child lists), or an element of the diff creates it; what was stored before is still there like that, unless an element of the diff deletes it or it goes along with a deleted object flagged SKIP_CHILDREN_ON_DELETE.
* `DS.C86_others` (lean/Verif/Props/SyncKilled.lean:183) Other stores on the server, and other keys, are untouched.
* `DS.Ex.C86_orphans_stay` (lean/Verif/Props/SyncKilledEx.lean:79) a limit: what a sync has left that was killed amid such a removal, another sync does not remove: the devices are listed by no site any more, so no diff mentions them.

## C87 A sync while other clients use the Redis server (proved)

If no other client of the Redis server writes to the store that a sync writes to, nor to the one that it reads its source from, then, whatever the other clients do to other stores and however their commands and those of the sync are interleaved, the sync returns or raises what it would alone on the server, its process ends with the same memory, and its stores have the same contents; at every time in between they have contents that the sync alone would leave if it were killed at some point. So any number of syncs into different stores, from local sources or from stores that none of them writes to, do not disturb each other.

*Over:* all numbers of clients, all interleavings of their commands, all diffs, contents, flags and CRUD implementations

* `DS.C87_isolated` (lean/Verif/Props/SyncConc.lean:47) A sync into a Redis store, while no other client of the server writes to that store (nor to the source's store, if that is on the server): whatever the other clients do, and in whatever order the server takes the commands, when the sync ends its result, its client's memory and the contents of these stores are those of a sync that has the server for itself.
* `DS.C87_meanwhile` (lean/Verif/Props/SyncConc.lean:61) At every point of such an execution, the contents of these stores are those that a sync leaves that has the server for itself and is killed at some point (so that C86 says what may be there and what may be missing).
* `DS.C87_stores_apart` (lean/Verif/Props/SyncConc.lean:72) Any number of syncs at the same time, each into another Redis store, from local sources or from Redis stores that none of them syncs into, while other clients write to none of these stores: each sync ends with the result and with the contents that it would have alone.

## C88 Several syncs into the same Redis store at the same time (proved)

Any number of syncs into the same Redis store at the same time, each of which may be killed at any point, while other clients do not write to that store: at every time, what is stored in it was stored there before exactly like that, or is an object, under its own type and unique id, that one of the diffs creates, with exactly the values that the diff gives; and what was stored before is still there exactly like that unless one of the diffs deletes it, or it goes along with an object flagged SKIP_CHILDREN_ON_DELETE that one of the diffs deletes. There is no protection beyond that: of two syncs that create the same object with different values both may succeed, and the object of one is lost; or one of them may raise.

*Over:* all numbers of syncs, all interleavings and kill points, all diffs of the form that diff_from computes, all contents, flags and CRUD implementations

* `DS.C88_same_store` (lean/Verif/Props/SyncConc.lean:218) Any number of syncs into the same Redis store at the same time, each of which may be killed at any point, while other clients do anything but write to that store: at every time, what is stored under a key of the store was stored there before exactly like that, or is an object, under its own key, that an element of one of the diffs creates, with the values that the element gives; and what was stored before is still there like that, unless an element of one of the diffs deletes it, or it goes along with an object flagged SKIP_CHILDREN_ON_DELETE that an element of one of the diffs deletes.
* `DS.C88_keys_right` (lean/Verif/Props/SyncConc.lean:307) And at every time each object on the server is stored under its own type and unique id, without adapter.
* `DS.Ex.C88_lost_create` (lean/Verif/Props/SyncConcEx.lean:190) What the theorem does not promise. Two syncs that create the same object with different values: if they take turns, both end without an error, and the object of the first one is lost; if the second one starts when the first one has ended, it raises, although its diff was computed from the same store.

## C89 Whole calls of sync_from into the same Redis store at the same time (proved)

Any number of processes call sync_from at the same time on adapters with the same Redis store, each with a source in its own memory or in another store on the server (which other clients may change meanwhile), and each of them may be killed at any point, while other clients do not write to that store. At every time, what is stored in it was stored there before exactly like that, or is an object, under its own type and unique id, made by the destination's class from the identifiers and attributes of an object that one of the sources had; and what was stored before is still there exactly like that, unless one of the sources did not have the same object at its place all the time (on some way from the top level along lists of children, as they were stored at times of the execution), or it goes along with such an object flagged SKIP_CHILDREN_ON_DELETE. The diff that a call returns reports only what was stored at times of the execution. If no other client writes to the stores of source and destination, the diff describes what source and store hold when the call begins, and the call ends like a sync with this diff that has the server for itself, or the diff raises for a reason in what they hold and nothing is changed. A call that is passed a diff with changes applies that one, or raises DiffClassMismatch before it sends anything; a diff without changes is ignored. There is no protection beyond that: a call may raise ObjectNotFound because another one deletes what it has just listed.

*Over:* all numbers of calls, all interleavings and kill points, all sources, contents, flags, CRUD implementations and recursion limits, all orders in which SCAN answers

* `DS.C89_same_store` (lean/Verif/Props/SyncFrom.lean:201) Any number of clients call `sync_from` on adapters with the same Redis store at the same time, each for a source of its own (in its own memory, or in any store on the server), and each of them may be killed at any point, while the other clients of the server do anything but write to that store. At every time, what is stored under a key of the store was stored there before exactly like that, or is an object, under its own key, made from an object that one of the sources had; and what was stored before is still there like that, unless it is at a place where one of the sources did not keep an object all the time, or it goes along with an object flagged SKIP_CHILDREN_ON_DELETE at such a place.
* `DS.C89_source_on_server` (lean/Verif/Props/SyncFrom.lean:315) What these theorems assume of a source (`FromJob.Ready`) holds of every source with a store of its own on the server, if at the start that store holds instances of the source's classes, and the clients that do not call `sync_from` store nothing else there, at any time: they may add, change and remove objects in it.
* `DS.C89_returns` (lean/Verif/Props/SyncFrom.lean:363) The diff that such a call returns reports what was stored at times of the execution: it is a diff as C82 describes it.
* `DS.C89_isolated` (lean/Verif/Props/SyncFrom.lean:412) And if the other clients do not write to the store, nor to the source's if that is on the server, then the diff describes what the source and the store hold when the call begins, and the call ends with the result, the memory and the contents of the store that a sync with this diff has which has the server for itself; or the diff cannot be computed, for a reason in what they hold, and the store is left as it was.
* `DS.C89_given` (lean/Verif/Props/SyncFrom.lean:466) With a `diff` argument: an empty diff (one without changes) is ignored, that is the call is the one without the argument; one of another class raises `DiffClassMismatch` before anything is sent to the server; and with any other one, if the other clients do not write to the store, nor to the source's, the call ends with the result (the diff that was passed, or an exception), the memory and the contents of the store of `sync_from` with this diff in a world that has the server for itself.
* `DS.Ex.C89_interleaved` (lean/Verif/Props/SyncFromEx.lean:110) What the theorems do not promise, for two calls whose sources differ in the role of a device that the store does not have: if they take turns, both end without an error; if the second one starts when the first one has ended, it raises; and if it has only listed the keys of the store when the first one makes its changes, its diff raises `ObjectNotFound`, because a site that it has listed is gone.

## C90 Clients of a Redis server do not wait for each other, and come to their ends (proved)

Whatever the clients of a Redis server do (store operations, diffs, syncs, any mixture), and wherever some of them have been killed, a client that has not come to its end can always take its next step: no operation waits for another client. In an execution without end each client takes only finitely many steps, however the others interfere, so a client that is not held up forever comes to its end, with a result or an exception; if only finitely many clients have something to do, every execution comes to an end, and then all of them have. A lookup, an update and a count are one command; add and remove_item are at most two; get_by_uids is at most one for each unique id, and get_all is one SCAN and at most one more for each key that it returns.

*Over:* all numbers of clients, all operations that they are in, all contents, all interleavings, finite and infinite, all orders in which SCAN answers, all points at which clients stop

* `DS.C90_never_waits` (lean/Verif/Props/WaitFree.lean:183) No client has to wait for another one: in every state that an execution comes to, whatever the other clients have done, have left undone, or are about to do, a client that has not come to its end can take its next step.
* `DS.C90_finitely_many` (lean/Verif/Props/WaitFree.lean:187) In an execution without end, each client takes only finitely many steps, whatever the other clients do in between: no client works forever.
* `DS.C90_ends` (lean/Verif/Props/WaitFree.lean:193) A client that is not held up forever comes to its end, with a result or an exception, and stays there.
* `DS.C90_all_end` (lean/Verif/Props/WaitFree.lean:209) So if only finitely many clients have anything to do, then no execution is without end; and where none of them can go on, all have come to their ends.
* `DS.C90_commands` (lean/Verif/Props/WaitFree.lean:268) A lookup, an update and a count are one command; `add` and `remove_item` are at most two; `get_by_uids` is at most one for each unique id, and `get_all` is a `SCAN` and at most one more for each key that it returns. So between the commands of one of these operations, other clients can interfere only once, in `add` and `remove_item`, and in the ones that read several objects.

## C91 What a sync into a Redis store leaves, and exactly when it converges (proved)

A sync into a Redis store in which all calls of user code succeed returns, and finds the object of every element of the diff. If it deletes nothing along with an object flagged SKIP_CHILDREN_ON_DELETE, it leaves exactly this: the objects that only the destination had are gone; those that only the source had are stored, as instances of the destination's class with the source's identifiers and attributes, default flags and no children; everything else is stored exactly as before, objects that were updated and lists of children included; and the source is as it was. The same diff computed again raises ObjectNotFound if the sync deleted an object below one that the source has too, and returns otherwise; then it plans the same updates again, with the same attributes, the creation again of every object created below another one, and nothing else. So the sync converges if and only if it planned no updates, created objects only at the top level, and deleted none below an object that the source has.

*Over:* all pairs of a source (in memory or in another Redis store) and a destination in a Redis store that can be reconciled (the hypotheses of C21), all flags, all diff classes that reorder only, all hooks and user code that succeeds

* `DS.C91_goes_through` (lean/Verif/Props/EscapeRedis.lean:127) When all calls succeed, a sync into a Redis store returns, and finds the object of every element.
* `DS.C91_outcome` (lean/Verif/Props/RedisNext.lean:251) What a sync into a Redis store leaves when it returns, all its calls succeeded, every element had its object and no object that it deleted takes along what is below it: objects that only the destination had are gone; objects that only the source had are there, built from the source's data, but without children; everything else is exactly as it was, child lists and objects that were to be updated included. The source is as it was.
* `DS.C91_next_returns` (lean/Verif/Props/RedisNext.lean:261) After such a sync the same diff (with whatever diff class) returns, unless the sync deleted an object below one that the source has: then the child list of that one still has the deleted object, and the diff raises `ObjectNotFound`.
* `DS.C91_next_plan` (lean/Verif/Props/RedisNext.lean:270) When the next diff returns, it plans exactly what the first one planned, except for deletions and for creations of objects at the top: the objects to update are to be updated again, with the same attributes, and the objects created below others are to be created again.
* `DS.C91_converges_iff` (lean/Verif/Props/RedisNext.lean:307) (and C42, exactly when it holds) Such a sync into a Redis store converges, that is, the next diff returns and shows no differences, if and only if the first diff planned no updates, created objects only at the top and deleted no object below one that the source has.

## C92 Which objects may be compared, and how two lists of them are paired (proved)

Comparing two lists of objects (diff_object_list) pairs them by unique id: one pair for each unique id in either list, in the order in which the ids first occur, the source's first; of several objects of one list with one id the last counts, and what only one list has is paired with nothing. Before anything is compared every pair is checked (validate_objects_for_diff): the check passes exactly if the two objects of every full pair have the same type, the same short name and equal identifiers. Otherwise the first pair that fails decides the exception, TypeError if the types differ and ValueError if only short name or identifiers do; then nothing has been changed and nothing compared.

*Over:* all lists of objects, of any types, with any ids repeated, on both sides; all lists of pairs for the check; all states of the program

* `DS.C92_validate_accepts` (lean/Verif/Props/Validate.lean:78) `validate_objects_for_diff` accepts a list of pairs exactly when the two objects of every full pair have the same type, the same short name and equal identifiers.
* `DS.C92_validate_raises` (lean/Verif/Props/Validate.lean:99) Otherwise the first pair that may not be compared decides the exception: `TypeError` if its objects have different types, `ValueError` if only their short names or identifiers differ.
* `DS.C92_list_refused` (lean/Verif/Props/Validate.lean:199) Two lists with two objects of one unique id that may not be compared (of several objects of one list with this id, the last counts) are refused before anything is compared: with `TypeError` or `ValueError`, as some pair with that fault says, and with no effect.
* `DS.C92_list_refused_one` (lean/Verif/Props/Validate.lean:210) In particular, when only one pair of the two lists has different types, short names or identifiers, that pair decides the exception.
* `DS.C92_list_compared` (lean/Verif/Props/Validate.lean:315) And two lists in which all objects with one unique id may be compared are not refused by the check: the comparison goes on with one pair for each unique id of the two lists, in the order in which the ids first occur, the source's first.
* `DS.C92_ex_type` (lean/Verif/Props/ValidateEx.lean:9) A site and a device with one unique id.
* `DS.C92_ex_value` (lean/Verif/Props/ValidateEx.lean:13) Two interfaces with one unique id, `"x__y__z"`, and different identifiers.
* `DS.C92_ex_paired` (lean/Verif/Props/ValidateEx.lean:17) They are paired, although another site of that id comes first, and other pairs fit.

## C93 The order of the elements of a diff (proved)

The elements of a diff returned by diff_from/diff_to stand in a fixed order, at the top and below every element. At the top they come by type, in the order of the destination's top_level, and only types in both adapters' top_level; below an element they come by child type in the order in which the class of the source's object declares them (the destination's object's class, if the source has none), and only types both classes declare. Of one type those that the source has come first, in the order of its get_all() or of its object's list of children, then those that only the destination has, in its order. What the flags exclude is left out and changes nothing in the order of the others. A diff class without order methods yields the children from get_children() in just this order, so that one type is never taken up again after another, and a sync makes its calls in it.

*Over:* all pairs of adapters with consistent contents, local or Redis, all trees of any depth and width, all flags and diff classes, all comparisons that return

* `DS.C93_diff_in_order` (lean/Verif/Props/DiffOrder.lean:218) The elements of a returned diff are in this order, at the top and below every element: by type, at the top as in the destination's `top_level` and below an element as the (source's) class declares its children; of one type first what the source has, in the order in which it holds it or its object lists it, and then what only the destination has, in its order; what flags exclude is left out.
* `DS.C93_get_children` (lean/Verif/Props/DiffOrder.lean:405) A diff class that does not reorder its children yields them, at the top and below every element, in the order in which the diff holds them: no type is taken up again once another type has begun.

## C94 The calls of a sync, in order, read off the contents of the two adapters (proved)

A sync from one adapter into another, all of whose create/update/delete calls succeed, makes exactly the calls that the contents of the two adapters say, in this order and with these arguments. It takes the places at the top in the order of the diff, and at each place, before the next: if both sides have the object and some attributes that both have differ, an update call with those attributes and the source's values; if only the source has it, a create call with its identifiers and attributes; if only the destination has it, a delete call; then the calls of the places below, in the same way. The calls below an object to be deleted that is flagged NATURAL_DELETION_ORDER come before its own; below one flagged SKIP_CHILDREN_ON_DELETE there are none; places the flags exclude have none. A sync that stops at an exception has made a first part of this list. There is only one such list, so the order of the calls is deterministic. It needs a diff class whose order methods keep the order of the elements.

*Over:* all pairs of adapters with consistent contents between which a sync can converge, the destination local or Redis, all trees of any depth and width, all flags, all user hooks, all syncs whose calls all succeed (or, for the first part, before which no object was found missing)

* `DS.C94_calls` (lean/Verif/Props/SyncOrder.lean:336) Between adapters that can be reconciled, a sync into a local store in which all calls succeed makes exactly the calls that can be read off the contents of the two adapters before it, in the order given there (for diff classes that do not reorder).
* `DS.C94_redis_calls` (lean/Verif/Props/SyncOrder.lean:348) The same of a sync into a Redis store.
* `DS.C94_first_calls` (lean/Verif/Props/SyncOrder.lean:360) A sync that stops at an exception, with no object missing before (no call returned `None`), has made the first of these calls.
* `DS.C94_redis_first_calls` (lean/Verif/Props/SyncOrder.lean:369) The same of a Redis store.
* `DS.C94_one_list` (lean/Verif/Props/SyncOrder.lean:378) There is only one such list of calls.

## C95 The calls of a sync when some of them fail (proved)

Whatever the create/update/delete calls of a sync return or raise, the calls it makes, together with their outcomes, are those that the contents of the two adapters before it say, in this order: the places are taken as in C94, each with the call that C94 names; if that call does not bring an object (it raised, or returned None), no calls are made for the places below it; the calls below an object to be deleted flagged NATURAL_DELETION_ORDER have been made before, and below one flagged SKIP_CHILDREN_ON_DELETE there are none, whatever the outcome. When the sync returns (with CONTINUE_ON_FAILURE, or when no call raised), these are all its calls; when it raises, they are the beginning of such a list. Two such lists for the same contents are equal or first differ in the outcome of a call that both make, so two syncs over the same contents make the same calls for as long as the calls have the same outcomes. With a diff class whose order methods reorder the elements, all this holds with the places of one type rearranged, at the top and below each place; the types keep their order.

*Over:* all pairs of adapters with consistent contents between which a sync can converge, the destination local or Redis, all trees, all flags, all user hooks with any sequence of outcomes, all diff classes that keep or only change the order

* `DS.C95_any_order` (lean/Verif/Props/SyncAnyOrder.lean:157) With a diff class whose order methods reorder, the same holds with the places of one type rearranged, at the top and below each place.
* `DS.C95_redis_any_order` (lean/Verif/Props/SyncAnyOrder.lean:165) The same of a sync into a Redis store.
* `DS.C95_run` (lean/Verif/Props/SyncRuns.lean:184) Between adapters that can be reconciled, the calls that a sync into a local store makes, with their outcomes, are a run that can be read off the contents of the two adapters before it: all of it when the sync returns, the beginning of one when it raises. Whatever the calls return or raise, with or without CONTINUE_ON_FAILURE.
* `DS.C95_redis_run` (lean/Verif/Props/SyncRuns.lean:192) The same of a sync into a Redis store.
* `DS.C95_same_or_split` (lean/Verif/Props/SyncRuns.lean:289) Two runs over the same contents are the same, or the same up to a call that has different outcomes in them: what is called next depends on the contents and on the outcomes so far.
* `DS.C95_same_calls` (lean/Verif/Props/SyncRuns.lean:294) Two syncs between adapters with the same contents, with the same flags: as long as their calls have the same outcomes they make the same calls.
* `DS.C95_redis_same_calls` (lean/Verif/Props/SyncRuns.lean:305) The same of syncs into Redis stores.

## C96 The object that ObjectAlreadyExists carries (partial)

When a store, a diff or a list of children refuses an object with ObjectAlreadyExists, the attribute existing_object of the exception is the object that is there already (as the exception's documentation says), so that the caller can compare the two; the store, diff or list is unchanged.

*Over:* all objects and elements, all contents of local and Redis stores and of diffs made by hand, all lists of children

*Note:* False as stated: existing_object is always the object that was refused, and in a local store never the one that is there (C96_local_partial), in a Redis store never one with the stored contents (C96_redis_partial), in a diff the one that is there only if the same element was added twice (C96_diff_partial). That the store or diff is unchanged, and all about add_child (which stores no objects, only unique ids), is proved.

* `DS.C96_add_same` (lean/Verif/Props/Refused.lean:11) Apart from the attribute of the exception, `add` is the `add` of the other properties.
* `DS.C96_add_child_same` (lean/Verif/Props/Refused.lean:49) `add_child` likewise.
* `DS.C96_diff_add_same` (lean/Verif/Props/Refused.lean:63) `Diff.add` likewise.
* `DS.C96_local_partial` (lean/Verif/Props/Refused.lean:70) When a local store refuses an object, there is another object with the same type and unique id in it, and it stays there; but `existing_object` is the object that was refused, not this one.
* `DS.C96_redis_partial` (lean/Verif/Props/Refused.lean:106) When a Redis store refuses an object, another with the same type and unique id is stored, with other contents, and stays; `existing_object` is the one that was refused.
* `DS.C96_diff_partial` (lean/Verif/Props/Refused.lean:128) When a diff refuses an element, one with the same type and name is in it already; `existing_object` is the element that was refused, hence the one that is there only if the same element was added twice.
* `DS.C96_add_child` (lean/Verif/Props/Refused.lean:152) When `add_child` refuses a child, its unique id is in the list, and `existing_object` is the child that was given.

## C97 A diff that was looked at first (proved)

A user may compute a diff, look at it, and hand it to sync_from(diff=...) later. As long as the two adapters have the contents again that they had when it was computed (and can be reconciled), the sync makes the calls that a sync computing its own diff with the flags of that diff makes, given the same outcomes; it returns that diff, or passes on what the last call raised; when all calls succeed it leaves the same contents. This holds for all flags and diff classes of the sync (the flags that choose what is compared have no effect then, CONTINUE_ON_FAILURE does). Right after the diff was computed the two syncs are the same in every detail. An empty diff is not used: the sync computes its own.

*Over:* all pairs of adapters that can be reconciled (local or Redis destination), all flags and diff classes of the diff and of the sync, all user methods, everything that happened between computing the diff and the sync

* `DS.C97_run` (lean/Verif/Props/Kept.lean:69) A sync that is given a diff computed before, between adapters that can be reconciled and have the contents again that they had then, makes the calls that can be read off these contents, all of them when it returns and the first ones when it raises: with the flags that the diff was computed with, whatever the flags and the diff class of the sync and whatever the calls return or raise.
* `DS.C97_redis_run` (lean/Verif/Props/Kept.lean:78) The same of a sync into a Redis store.
* `DS.C97_any_order` (lean/Verif/Props/Kept.lean:87) With a diff class whose order methods reorder: up to the order of the places of one type.
* `DS.C97_redis_any_order` (lean/Verif/Props/Kept.lean:96) The same of a sync into a Redis store.
* `DS.C97_result` (lean/Verif/Props/Kept.lean:106) It returns that diff, or passes on what the user's method of its last call raised; under CONTINUE_ON_FAILURE of the sync, none of the exceptions announced for failed actions.
* `DS.C97_redis_result` (lean/Verif/Props/Kept.lean:116) The same of a sync into a Redis store.
* `DS.C97_outcome` (lean/Verif/Props/Kept.lean:126) When all calls succeed, it leaves in a local store what a sync that computes its diff with the flags of that diff leaves.
* `DS.C97_same_calls` (lean/Verif/Props/Kept.lean:142) The calls are those of a sync that computes its diff with these flags, as long as the outcomes are the same.
* `DS.C97_empty` (lean/Verif/Props/Kept.lean:155) An empty diff is not used: the sync computes its own.
* `DS.C97_at_once` (lean/Verif/Props/Kept.lean:162) Right after the diff was computed, a sync that is given it does to the last detail what a sync that computes it does.

## C98 What a sync leaves when some calls fail (proved)

Whatever the calls of a sync return or raise, and whether the sync itself returns or raises, what the destination holds afterwards is given by the contents of the two adapters before and by which of the calls did their work: of the objects that it did not have those are there that a call created, instances of the destination's class with the source's identifiers and attributes and defaults otherwise; of the objects that it had exactly those are gone that a call deleted and those below a deleted object flagged SKIP_CHILDREN_ON_DELETE, so that what is below such an object goes with it as a whole or stays with it as a whole; all others are there, with their class and flags, and with their values unless a call updated them, in which case the attributes that differed have the source's values and the rest is as it was; the children of an object are those it has on either side as far as they are there. So two syncs from the same contents whose calls have the same outcomes one after the other make the same calls and leave the same objects.

*Over:* all pairs of adapters that can be reconciled with a local destination, all flags and diff classes, all user methods and all patterns of failures, for the last part: diff classes that do not reorder

* `DS.C98_left` (lean/Verif/Props/CallsLeave.lean:27) What a sync into a local store leaves, between adapters that can be reconciled, whatever its calls return or raise and whether it returns or raises: it is given by the contents of the two adapters and by which calls did their work.
* `DS.C98_left_to` (lean/Verif/Props/CallsLeave.lean:85) The same of `sync_to`.
* `DS.C98_subtree` (lean/Verif/Props/CallsLeave.lean:90) What is below an object that only the destination has, and that takes along what is below it, goes with it as a whole or stays with it as a whole: no failure of a call leaves a part of it.
* `DS.C98_deletes` (lean/Verif/Props/CallsLeave.lean:107) A delete call is made only for an object that takes part and that the source does not have.
* `DS.C98_determined` (lean/Verif/Props/CallsLeave.lean:128) So the contents that are left are determined by the contents before and by which calls did their work.
* `DS.C98_same_outcomes` (lean/Verif/Props/CallsLeave.lean:184) Two syncs from the same contents, whose calls have the same outcomes one after the other, make the same calls and leave the same objects: whatever the user's code, the environment, the recursion limits and what happened before.

## C99 Records of unchanged objects (proved)

Without LOG_UNCHANGED_RECORDS a sync logs nothing about objects that are the same on both sides. With it, every such object that the diff lists has exactly one record, of level debug and status success, naming it, when the sync returns and every object above it resulted in an object; so their number is the no-change count of the summary. An object below one whose call failed has none.

*Over:* all diffs, outcomes of calls and flags

* `DS.C99_only_when_asked` (lean/Verif/Props/Unchanged.lean:250) Without LOG_UNCHANGED_RECORDS a sync writes no record of level debug.
* `DS.C99_unchanged_records` (lean/Verif/Props/Unchanged.lean:258) The records of level debug of a sync, in order, have status success and name elements of the diff without action, each element being used at most once; whatever the calls return or raise.
* `DS.C99_every_unchanged` (lean/Verif/Props/Unchanged.lean:266) With LOG_UNCHANGED_RECORDS, when the sync returns, an element without action has such a record, unless some element above it was left without an object: its call did not return one, or its action was refused.
* `DS.C99_exactly_the_unchanged` (lean/Verif/Props/Unchanged.lean:285) When the sync returns and no element is left without an object, there is exactly one such record for every element without action; so their number is the `no-change` count of the summary of the diff.
* `DS.C99_once` (lean/Verif/Props/Unchanged.lean:299) When no two elements of the diff are about the same object, no object has two such records.
* `DS.Ex.C99_hidden_below_failure` (lean/Verif/Props/UnchangedEx.lean:46) That there is a record for every element without action needs that the elements above it have objects: when the update of the device returns nothing, its interface, which is the same on both sides, has no record, though the sync returns.

## C100 Warnings that no object resulted (proved)

A sync warns that no object resulted only right after the record of a failed attempt, naming the same object and action (a user method that returned nothing or, under CONTINUE_ON_FAILURE, one that raised or an action that was refused), or about an object that is to be left as it is and is not in the destination: it was not when the sync began or has been removed along with one above it. Conversely every user method that does not return an object has its record and right after it this warning, unless it raised and the exception ends the sync. And when the sync returns, an object that is to be left as it is but was not in the destination when it began is warned of, unless there is a warning about one above it.

*Over:* all diffs, computed or given, all flags, all user methods and patterns of failures

* `DS.C100_warning_has_cause` (lean/Verif/Props/Missing.lean:264) A warning that no object resulted follows at once the record of a failed attempt and names what that names (a call that returned nothing; or, under CONTINUE_ON_FAILURE, one that raised or an action that was refused), or it names an object that is to be left as it is but is not there: it was not when the sync began, or it has been removed along with one above it.
* `DS.C100_failure_is_warned` (lean/Verif/Props/Missing.lean:292) Conversely every call that does not return an object is followed by its record and then at once by the warning, which names the same; unless the call raised and that exception ends the sync.
* `DS.C100_absent_is_warned` (lean/Verif/Props/Missing.lean:307) And an object that is to be left as it is but was not in the destination when the sync began is warned of when the sync returns, unless there is a warning about an element above it.

## C101 What a removal with children reports (proved)

remove(obj, remove_children=True) of a stored object warns exactly about the entries of the child lists of the removed objects that led to no removal. So about each child there are as many warnings as there are entries for it in the lists of the removed objects, less one if it was itself removed (and is not obj); the warnings and the removed objects together are one more than the entries. Each warning names a removed object and a child it lists which is not there afterwards; the child was not stored to begin with, or is obj itself, or is listed more than once. In a sync there are such warnings only after a successful delete call for an object flagged SKIP_CHILDREN_ON_DELETE.

*Over:* all contents of a local or Redis store, with missing ids, ids listed twice, shared children and cycles; any recursion limit of at least the number of stored objects; for syncs: all diffs without two elements for one object, all flags and user methods

* `DS.C101_removal_report_local` (lean/Verif/Props/Removal.lean:14) `remove(obj, remove_children=True)` of an object in a local store: of the listings of the objects it removes, each led to the removal of one object or is reported, and nothing else is reported.
* `DS.C101_removal_report_redis` (lean/Verif/Props/Removal.lean:31) The same on a Redis store, for model names that Redis keys can hold.
* `DS.C101_how_many` (lean/Verif/Props/Removal.lean:66) How many warnings there are about a child: as many as there are listings of it by the objects that are gone, less the one through which it was removed if it was.
* `DS.C101_in_all` (lean/Verif/Props/Removal.lean:90) In all, the warnings and the objects that are gone are one more than the listings.
* `DS.C101_why` (lean/Verif/Props/Removal.lean:99) Why there is a warning: an object that is gone lists the child, and the child was not there to begin with, or it is the object that was to be removed, or it is listed more than once.
* `DS.C101_in_a_sync` (lean/Verif/Props/SyncAlong.lean:93) A sync warns that a child was not found only after it made a delete call, which succeeded, for an object that was flagged SKIP_CHILDREN_ON_DELETE in the destination when the sync began.
