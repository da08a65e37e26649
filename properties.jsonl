{"id": "C01", "title": "Action classification", "statement": "A DiffElement's action is 'create' exactly when only the source side is present, 'delete' exactly when only the destination side is present, 'update' exactly when both are present and some attribute that both sides carry has different values, and None in every other case.", "quantifier": "all elements, all attribute dictionaries of any size on either side, present or absent", "why_tests_cant": "four presence cases times unbounded attribute dictionaries with partially overlapping keys", "anchors": ["diffsync/diff.py:DiffElement.action", "diffsync/diff.py:DiffElement.get_attrs_keys"]}
{"id": "C02", "title": "has_diffs means there is something to do", "statement": "Diff.has_diffs() is true exactly when some element anywhere in the tree has an action; equivalently when summary() counts at least one create, update or delete; equivalently when dict() is non-empty. DiffElement.has_diffs(include_children=False) is true exactly when that element's own action is not None.", "quantifier": "all diff trees of any width and depth", "why_tests_cant": "trees are unbounded; three independent recursive traversals must agree on all of them", "anchors": ["diffsync/diff.py:Diff.has_diffs", "diffsync/diff.py:DiffElement.has_diffs", "diffsync/diff.py:Diff.summary", "diffsync/diff.py:Diff.dict"]}
{"id": "C03", "title": "Attribute diffs are exact", "statement": "get_attrs_diffs() lists, for an element present on both sides, exactly the shared attributes whose values differ, with the source value under '+' and the destination value under '-', both with the same keys; for a one-sided element it lists that side's attributes completely under '+' (source only) or '-' (destination only) and has no other entry.", "quantifier": "all elements and attribute dictionaries", "why_tests_cant": "unbounded dictionaries with arbitrary overlap", "anchors": ["diffsync/diff.py:DiffElement.get_attrs_diffs"]}
{"id": "C04", "title": "Updates are sufficient and minimal", "statement": "Setting the '+' attributes of an update element on the destination object makes every shared attribute equal to the source's and leaves every other attribute unchanged; removing any entry from '+' would leave a difference.", "quantifier": "all pairs of objects and attribute values", "why_tests_cant": "all dictionaries; value equality is user-defined", "anchors": ["diffsync/diff.py:DiffElement.get_attrs_diffs", "diffsync/__init__.py:DiffSyncModel.update_base"]}
{"id": "C05", "title": "Summary totals", "statement": "In every diff, create + update + delete + no-change of summary() equals len(diff), and the counts are the numbers of elements in the tree with that action, whatever order methods the Diff class defines.", "quantifier": "all diff trees, all Diff subclasses that reorder children", "why_tests_cant": "unbounded trees and arbitrary user order methods", "anchors": ["diffsync/diff.py:Diff.summary", "diffsync/diff.py:Diff.__len__", "diffsync/diff.py:DiffElement.summary", "diffsync/diff.py:DiffElement.__len__"]}
{"id": "C06", "title": "Skip count", "statement": "For a diff computed by diff_from/diff_to, summary()['skip'] is never negative, create + delete + 2*update + 2*no-change + skip equals the number of models processed, and skip is exactly the sum of: the number of objects of the types that are top-level in only one adapter; one for every visit to a place that flags exclude (a matched pair excluded by IGNORE counts once, and what is below it does not count); at every matched pair that is shown, the children listed under types only one of the two objects declares; and repetitions in child lists. It is zero if there is nothing of these kinds.", "quantifier": "all pairs of adapters, all flags, all model flags", "why_tests_cant": "the count is maintained incrementally in six different branches over unbounded data", "anchors": ["diffsync/diff.py:Diff.summary", "diffsync/helpers.py:DiffSyncDiffer.incr_models_processed", "diffsync/helpers.py:DiffSyncDiffer.diff_object_pair", "diffsync/helpers.py:DiffSyncDiffer.calculate_diffs", "diffsync/helpers.py:DiffSyncDiffer.diff_object_list", "diffsync/helpers.py:DiffSyncDiffer.diff_child_objects"]}
{"id": "C07", "title": "Order methods only reorder", "statement": "For Diff subclasses whose order_children_* methods yield each given child exactly once, len(), summary() and has_diffs() do not depend on the order methods, and get_children() yields every child exactly once.", "quantifier": "all diff trees and all permuting order methods", "why_tests_cant": "order methods are arbitrary user code", "anchors": ["diffsync/diff.py:Diff.get_children", "diffsync/diff.py:Diff.order_children_default"]}
{"id": "C08", "title": "No two diff elements share type and name", "statement": "Diff.add either adds the element, or raises ObjectAlreadyExists and leaves the diff unchanged when one with the same type and name is present; hence no diff reachable by any sequence of add calls holds two elements of one type with the same name.", "quantifier": "all sequences of add calls", "why_tests_cant": "unbounded histories", "anchors": ["diffsync/diff.py:Diff.add"]}
{"id": "C09", "title": "DiffElement ordering", "statement": "Comparing DiffElements with < is a strict order by (type, name): irreflexive, asymmetric, transitive, and any two elements with different (type, name) are comparable; so sorting elements with distinct (type, name) is deterministic.", "quantifier": "all triples of elements", "why_tests_cant": "ranges over all strings", "anchors": ["diffsync/diff.py:DiffElement.__lt__", "diffsync/diff.py:DiffElement.__eq__"]}
{"id": "C10", "title": "The diff is complete and sound", "statement": "diff_from without flags contains, for each type that is top level in both adapters, exactly one element per unique id stored in either adapter, carrying exactly the source object's attributes if the source has it and the destination object's attributes if the destination has it, and recursively the same for the children listed by those objects; it contains nothing else.", "quantifier": "all pairs of adapter contents of any size and nesting depth", "why_tests_cant": "unbounded object trees", "anchors": ["diffsync/helpers.py:DiffSyncDiffer.calculate_diffs", "diffsync/helpers.py:DiffSyncDiffer.diff_object_list", "diffsync/helpers.py:DiffSyncDiffer.diff_object_pair", "diffsync/helpers.py:DiffSyncDiffer.diff_child_objects"]}
{"id": "C11", "title": "Computing a diff changes nothing", "statement": "diff_from/diff_to leave the objects, attributes, child lists and flags of both adapters (and of every other adapter) exactly as they were, whether the diff succeeds or raises, for the local and for the Redis store.", "quantifier": "all worlds, all flags, success and every error exit", "why_tests_cant": "all data and all error exits", "anchors": ["diffsync/helpers.py:DiffSyncDiffer", "diffsync/__init__.py:Adapter.diff_from"]}
{"id": "C12", "title": "No diffs means agreement", "statement": "diff_from(source).has_diffs() is False exactly when source and destination agree: same unique ids at every level, and equal values on all shared attributes. In particular diffing an adapter against itself, or against an equal copy, reports no diffs.", "quantifier": "all pairs of adapters for which the diff is defined", "why_tests_cant": "unbounded data", "anchors": ["diffsync/helpers.py:DiffSyncDiffer.calculate_diffs", "diffsync/diff.py:Diff.has_diffs"]}
{"id": "C13", "title": "diff_to mirrors diff_from", "statement": "a.diff_to(b) is b.diff_from(a). Swapping the two adapters turns creates into deletes and the reverse, keeps updates and unchanged elements with '+' and '-' exchanged, so has_diffs() is symmetric and the summary counts of create and delete are exchanged.", "quantifier": "all pairs of adapters whose models declare the same children", "why_tests_cant": "unbounded data", "anchors": ["diffsync/__init__.py:Adapter.diff_to", "diffsync/__init__.py:Adapter.diff_from"]}
{"id": "C14", "title": "Global SKIP_UNMATCHED flags on diffs", "statement": "With SKIP_UNMATCHED_SRC no element anywhere in the diff has action create; with SKIP_UNMATCHED_DST none has action delete; elements existing on both sides are reported exactly as without the flag: the flagged diff is the unflagged one with the one-sided subtrees removed.", "quantifier": "all adapters, all flag combinations", "why_tests_cant": "unbounded data and flags on every model", "anchors": ["diffsync/helpers.py:DiffSyncDiffer.diff_object_pair", "diffsync/enum.py:DiffSyncFlags"]}
{"id": "C15", "title": "Model flags on diffs", "statement": "An object flagged IGNORE on either side, or SKIP_UNMATCHED_SRC / SKIP_UNMATCHED_DST while unmatched on that side, produces no element in the diff, and its children produce none through it.", "quantifier": "all adapters and all assignments of model flags", "why_tests_cant": "flags are per instance and unbounded in number", "anchors": ["diffsync/helpers.py:DiffSyncDiffer.diff_object_pair", "diffsync/enum.py:DiffSyncModelFlags"]}
{"id": "C16", "title": "Dangling children are reported, never dropped", "statement": "If an object that takes part in the diff lists a child unique id that is not stored, diff_from raises ObjectNotFound; whenever diff_from returns, every child id listed by an object in the diff (for a compared child type) was resolved.", "quantifier": "all adapter contents including inconsistent ones", "why_tests_cant": "inconsistencies can be anywhere in an unbounded tree", "anchors": ["diffsync/helpers.py:DiffSyncDiffer.diff_child_objects", "diffsync/store/local.py:LocalStore.get_by_uids"]}
{"id": "C17", "title": "Only like objects are paired", "statement": "Whenever diff_from returns, every pair of objects it compared has equal type, equal shortname and equal identifiers; a pair that shares a unique id but differs in identifiers makes it raise instead of being reported as an update.", "quantifier": "all adapter contents", "why_tests_cant": "unbounded data", "anchors": ["diffsync/helpers.py:DiffSyncDiffer.validate_objects_for_diff"]}
{"id": "C18", "title": "Diff progress callback", "statement": "During diff_from the callback's 'current' values are strictly increasing, 'total' is constant and equals the number of objects in both adapters, and the final value is the number of models processed; when every object is listed exactly once, current never exceeds total.", "quantifier": "all adapters, all flags", "why_tests_cant": "the sequence is produced by many call sites over unbounded data", "anchors": ["diffsync/helpers.py:DiffSyncDiffer.incr_models_processed"]}
{"id": "C19", "title": "Diff termination", "statement": "If no object is (transitively) its own child, diff_from terminates, within a recursion depth bounded by the depth of the child relation; if following child lists from a compared object leads back to itself, no recursion limit suffices and diff_from raises RecursionError.", "quantifier": "all child graphs", "why_tests_cant": "depth and cycle length are unbounded", "anchors": ["diffsync/helpers.py:DiffSyncDiffer.diff_child_objects"]}
{"id": "C20", "title": "Types that are not top level on both sides are ignored", "statement": "Only types that appear in both adapters' top_level occur at the top of a diff; objects of other top-level types never appear there and are never created, updated or deleted at the top level of a sync.", "quantifier": "all top_level declarations and contents; the classes of the destination keep the identifiers given to them", "why_tests_cant": "all declarations", "anchors": ["diffsync/helpers.py:DiffSyncDiffer.calculate_diffs", "diffsync/utils.py:intersection", "diffsync/utils.py:symmetric_difference"]}
{"id": "C21", "title": "Sync converges", "statement": "If create/update/delete succeed, the adapters' child lists form forests in which every object known to both sides has the same parent, and the classes are compatible, then sync_from(source) returns without error and afterwards diff_from(source) with the same flags reports no diffs.", "quantifier": "all adapter contents satisfying the stated conditions, all flags and permuting order methods; the classes of the destination make equal values of the attribute values of the objects to be created (otherwise see C72)", "why_tests_cant": "unbounded trees; the result depends on the interleaving of child-list and store updates", "anchors": ["diffsync/helpers.py:DiffSyncSyncer.perform_sync", "diffsync/helpers.py:DiffSyncSyncer.sync_diff_element", "diffsync/__init__.py:Adapter.sync_from"]}
{"id": "C22", "title": "Sync is idempotent", "statement": "After a converged sync, repeating sync_from performs no create/update/delete call, changes no object, and does not invoke sync_complete.", "quantifier": "all adapter contents for which a diff has no diffs", "why_tests_cant": "all contents", "anchors": ["diffsync/__init__.py:Adapter.sync_from", "diffsync/helpers.py:DiffSyncSyncer.perform_sync"]}
{"id": "C23", "title": "Sync touches nothing else", "statement": "Whatever the create/update/delete methods do (succeed, return None, raise), sync_from never changes the source adapter's objects, and in the destination it changes, adds or removes only objects that occur in the diff (plus the descendants of deleted objects flagged SKIP_CHILDREN_ON_DELETE).", "quantifier": "all diffs, all behaviours of user methods, all crash points", "why_tests_cant": "arbitrary user behaviour at every step", "anchors": ["diffsync/helpers.py:DiffSyncSyncer.sync_diff_element"]}
{"id": "C24", "title": "SKIP_UNMATCHED flags on syncs", "statement": "sync_from with SKIP_UNMATCHED_SRC adds no object to the destination and makes no create call; with SKIP_UNMATCHED_DST it removes no object from the destination and makes no delete call, whatever fails.", "quantifier": "all adapters, all behaviours of user methods; the classes of the destination keep the identifiers given to them", "why_tests_cant": "arbitrary failures", "anchors": ["diffsync/helpers.py:DiffSyncSyncer.sync_diff_element", "diffsync/enum.py:DiffSyncFlags"]}
{"id": "C25", "title": "CRUD arguments", "statement": "Every create call made by a sync gets the source object's identifiers and attributes; every update call gets exactly the shared attributes that differ with the source's values; delete is called on the stored destination object.", "quantifier": "all syncs; the classes of the destination keep the identifiers given to them", "why_tests_cant": "all data", "anchors": ["diffsync/helpers.py:DiffSyncSyncer.sync_diff_element", "diffsync/helpers.py:DiffSyncSyncer.sync_model"]}
{"id": "C26", "title": "CRUD call order", "statement": "When every call succeeds, the create/update/delete calls of a sync are made in the documented pre-order traversal: elements in the order of get_children(), each object before its children, except that with NATURAL_DELETION_ORDER a deleted object's children come before it, and with SKIP_CHILDREN_ON_DELETE they get no call.", "quantifier": "all diffs and order methods", "why_tests_cant": "unbounded trees", "anchors": ["diffsync/helpers.py:DiffSyncSyncer.sync_diff_element", "docs/source/getting_started/01-getting-started.md"]}
{"id": "C27", "title": "At most one call per diff element", "statement": "A sync makes at most one create/update/delete call per element of the diff, and only calls that the diff prescribes, whatever the calls return or raise.", "quantifier": "all diffs, all user method behaviours", "why_tests_cant": "arbitrary failures", "anchors": ["diffsync/helpers.py:DiffSyncSyncer.sync_diff_element"]}
{"id": "C28", "title": "Failure containment", "statement": "If the create or update of an object returns None, or fails with an ObjectCrudException under CONTINUE_ON_FAILURE, no create/update/delete call is made for any element below it in the diff, a failed create adds nothing to the destination, and a failed delete removes nothing.", "quantifier": "all diffs, all failure points", "why_tests_cant": "failure can occur at any element", "anchors": ["diffsync/helpers.py:DiffSyncSyncer.sync_diff_element", "diffsync/helpers.py:DiffSyncSyncer.sync_model"]}
{"id": "C29", "title": "Fail-stop by default", "statement": "Without CONTINUE_ON_FAILURE, the first ObjectCrudException aborts the sync: it propagates to the caller, no later create/update/delete call is made, sync_complete is not invoked, and the calls made are a prefix of those a fully successful sync would have made.", "quantifier": "all diffs, all crash points", "why_tests_cant": "every position can be the crash point", "anchors": ["diffsync/helpers.py:DiffSyncSyncer.sync_model"]}
{"id": "C30", "title": "CONTINUE_ON_FAILURE never stops early", "statement": "With CONTINUE_ON_FAILURE, if user methods only fail with ObjectCrudException or by returning None, no ObjectCrudException escapes sync_from, and every element that has no failed ancestor is attempted.", "quantifier": "all diffs, all failure schedules", "why_tests_cant": "all subsets of failing calls", "anchors": ["diffsync/helpers.py:DiffSyncSyncer.sync_model", "diffsync/enum.py:DiffSyncFlags"]}
{"id": "C31", "title": "Recovery after partial or aborted syncs", "statement": "After any number of partially failed or aborted syncs, a later sync in which all calls succeed converges as if the failures had not happened.", "quantifier": "all failure schedules and crash points of all earlier runs; the classes of the destination make equal values of the attribute values of the objects to be created (otherwise see C72)", "why_tests_cant": "all crash points of all histories", "anchors": ["diffsync/helpers.py:DiffSyncSyncer.perform_sync", "diffsync/__init__.py:Adapter.sync_from"]}
{"id": "C32", "title": "sync_complete is invoked exactly on change", "statement": "sync_complete is invoked exactly once, after all calls, when at least one create/update/delete was attempted and the sync did not raise; it is not invoked when the diff has nothing to do.", "quantifier": "all diffs and outcomes", "why_tests_cant": "all trees", "anchors": ["diffsync/__init__.py:Adapter.sync_from", "diffsync/helpers.py:DiffSyncSyncer.perform_sync"]}
{"id": "C33", "title": "Sync progress callback", "statement": "During a sync the callback's 'current' is strictly increasing by one, 'total' is constant and equals len(diff), current never exceeds total, and reaches it when no call fails and no SKIP_CHILDREN_ON_DELETE shortcut is taken.", "quantifier": "all diffs, outcomes and order methods", "why_tests_cant": "all trees and failures", "anchors": ["diffsync/helpers.py:DiffSyncSyncer.incr_elements_processed"]}
{"id": "C34", "title": "Stale diffs are refused, not misapplied", "statement": "Applying a diff to a destination that changed since: creating an object that exists, or updating or deleting one that does not, raises ObjectCrudException (or is skipped under CONTINUE_ON_FAILURE) without calling the user's method and without changing the destination.", "quantifier": "all diffs and all destination contents", "why_tests_cant": "any diff may meet any contents", "anchors": ["diffsync/helpers.py:DiffSyncSyncer.sync_model"]}
{"id": "C35", "title": "A provided diff is used as is", "statement": "sync_from(diff=d) applies d instead of computing a new diff, and raises DiffClassMismatch when d is not an instance of diff_class.", "quantifier": "all diffs, including empty ones", "why_tests_cant": "all diffs", "anchors": ["diffsync/__init__.py:Adapter.sync_from"]}
{"id": "C36", "title": "The local store is a map", "statement": "Every sequence of add/update/remove/get calls on a LocalStore behaves like a map from (model name, unique id) to objects: get returns the object last stored under that key and raises ObjectNotFound otherwise; add of a different object under a used key raises ObjectAlreadyExists and changes nothing; re-adding the same object is a no-op; remove of an absent object raises ObjectNotFound and changes nothing; operations on one key never affect another.", "quantifier": "all operation sequences", "why_tests_cant": "unbounded histories", "anchors": ["diffsync/store/local.py:LocalStore.add", "diffsync/store/local.py:LocalStore.get", "diffsync/store/local.py:LocalStore.update", "diffsync/store/local.py:LocalStore.remove_item", "diffsync/store/__init__.py:BaseStore.remove"]}
{"id": "C37", "title": "Counts agree with contents", "statement": "count(model) equals len(get_all(model)), count() is the sum over all models, and len(adapter) equals count(), after any history of operations.", "quantifier": "all histories, local and Redis stores", "why_tests_cant": "unbounded histories", "anchors": ["diffsync/store/local.py:LocalStore.count", "diffsync/store/redis.py:RedisStore.count", "diffsync/__init__.py:Adapter.__len__"]}
{"id": "C38", "title": "get_by_uids is ordered and all-or-nothing", "statement": "get_by_uids(uids) returns the objects in the order of the given ids, one per id, or raises ObjectNotFound if any id is missing.", "quantifier": "all id lists with repetitions, all contents", "why_tests_cant": "unbounded lists", "anchors": ["diffsync/store/local.py:LocalStore.get_by_uids", "diffsync/store/redis.py:RedisStore.get_by_uids"]}
{"id": "C39", "title": "get_or_* and update_or_* helpers", "statement": "get_or_instantiate, get_or_add_model_instance, update_or_instantiate and update_or_add_model_instance return created=True exactly when no object with that id was stored; afterwards an object with that id is stored and is the one returned; the get variants leave an existing object unchanged, the update variants leave it with the given attribute values; no other object changes. If an attribute given to update_or_instantiate is not a field it raises AttributeError, but the object is stored all the same, with the values of the attributes before that one.", "quantifier": "all contents, ids and attributes; the class keeps the identifiers given to it (otherwise a second get_or_instantiate raises ObjectAlreadyExists)", "why_tests_cant": "all histories", "anchors": ["diffsync/store/__init__.py:BaseStore.get_or_instantiate", "diffsync/store/__init__.py:BaseStore.get_or_add_model_instance", "diffsync/store/__init__.py:BaseStore.update_or_instantiate", "diffsync/store/__init__.py:BaseStore.update_or_add_model_instance"]}
{"id": "C40", "title": "remove with remove_children", "statement": "remove(obj, remove_children=True) on a stored object always terminates without error, even if child lists contain missing ids or cycles, and removes exactly the stored objects reachable from obj through child lists; remove_children=False removes exactly obj.", "quantifier": "all child graphs, including cyclic and dangling", "why_tests_cant": "arbitrary graphs", "anchors": ["diffsync/store/__init__.py:BaseStore.remove"]}
{"id": "C41", "title": "The Redis store is the same map, isolated per store id", "statement": "With store ids and model names free of ':' and glob characters, a RedisStore behaves like the same map from (model name, unique id) to object contents, and stores with different store ids never see or affect each other's objects.", "quantifier": "all operation sequences on any number of stores sharing one Redis database", "why_tests_cant": "unbounded histories and key strings", "anchors": ["diffsync/store/redis.py:RedisStore"]}
{"id": "C42", "title": "Sync converges on the Redis store", "statement": "The convergence guarantee of sync_from also holds when the destination uses a RedisStore: updated attributes and changed child lists are persisted.", "quantifier": "all adapter contents", "why_tests_cant": "all contents", "anchors": ["diffsync/store/redis.py:RedisStore.get", "diffsync/helpers.py:DiffSyncSyncer.sync_diff_element"]}
{"id": "C43", "title": "Unique ids identify", "statement": "Two objects of one class have the same unique id exactly when their identifier values have the same string forms; get by identifier dict and get by unique id string find the same object.", "quantifier": "all identifier values", "why_tests_cant": "all strings", "anchors": ["diffsync/__init__.py:DiffSyncModel.create_unique_id", "diffsync/store/__init__.py:BaseStore._get_uid"]}
{"id": "C44", "title": "Child lists", "statement": "add_child appends the child's unique id to the list for its type, or raises and changes nothing if the type is not a declared child type (ObjectStoreWrongType) or the id is already listed (ObjectAlreadyExists); remove_child undoes add_child and raises ObjectNotFound if the id is not listed; no sequence of add_child/remove_child calls produces a duplicate.", "quantifier": "all sequences of calls", "why_tests_cant": "unbounded histories", "anchors": ["diffsync/__init__.py:DiffSyncModel.add_child", "diffsync/__init__.py:DiffSyncModel.remove_child"]}
{"id": "C45", "title": "Model class declarations are validated", "statement": "A DiffSyncModel subclass is accepted exactly when every name in _identifiers, _shortname, _attributes and _children refers to a field (identifiers may also be class attributes) and no field is in two of _identifiers, _attributes and _children; hence get_identifiers() and get_attrs() of any instance never share a key.", "quantifier": "all class declarations", "why_tests_cant": "all declarations", "anchors": ["diffsync/__init__.py:DiffSyncModel.__pydantic_init_subclass__"]}
{"id": "C46", "title": "dict / load_from_dict round trip", "statement": "Loading the dict() export of an adapter into a fresh adapter of the same class yields an adapter with the same export and the same objects (attributes, child lists, model flags), for data whose fields equal to their defaults are omitted as well. The export itself raises nothing but KeyError, and that only if get_all returns an object of another type for one of the names, as a Redis store does when the type of a stored object has a colon in its name.", "quantifier": "all adapter contents", "why_tests_cant": "unbounded contents", "anchors": ["diffsync/__init__.py:Adapter.dict", "diffsync/__init__.py:Adapter.load_from_dict"]}
{"id": "C47", "title": "Tree traversal helper", "statement": "get_tree_traversal(as_dict=True) contains every model class of the adapter and each child type under the path of its parent; get_path returns a path exactly when the key occurs, the path really leads to the key, and set_key never removes keys.", "quantifier": "all class declarations and nested dictionaries", "why_tests_cant": "unbounded nesting", "anchors": ["diffsync/utils.py:get_path", "diffsync/utils.py:set_key", "diffsync/__init__.py:Adapter.get_tree_traversal"]}
{"id": "C48", "title": "Flag algebra", "statement": "Enabling a flag with |= makes exactly that flag test true and leaves every other flag as it was, and &= ~ disables exactly that flag; SKIP_UNMATCHED_BOTH behaves as both SKIP_UNMATCHED_SRC and SKIP_UNMATCHED_DST.", "quantifier": "all flag values", "why_tests_cant": "all combinations of flags", "anchors": ["diffsync/enum.py:DiffSyncFlags", "diffsync/enum.py:DiffSyncModelFlags"]}
{"id": "C49", "title": "get_all_model_names lists the stored models", "statement": "get_all_model_names() is exactly the set of model names that have at least one stored object, after any history of operations.", "quantifier": "all histories, local and Redis stores", "why_tests_cant": "unbounded histories", "anchors": ["diffsync/store/local.py:LocalStore.get_all_model_names", "diffsync/store/redis.py:RedisStore.get_all_model_names"]}
{"id": "C50", "title": "Natural deletion order", "statement": "When a deleted object carries NATURAL_DELETION_ORDER (and not SKIP_CHILDREN_ON_DELETE), the delete calls of everything below it in the diff precede its own; without the flag its own comes first.", "quantifier": "all diffs", "why_tests_cant": "unbounded trees", "anchors": ["diffsync/helpers.py:DiffSyncSyncer.sync_diff_element", "diffsync/enum.py:DiffSyncModelFlags"]}
{"id": "C51", "title": "SKIP_CHILDREN_ON_DELETE", "statement": "Deleting an object flagged SKIP_CHILDREN_ON_DELETE makes exactly one delete call, none for its descendants, and removes from the destination exactly that object and the objects reachable from it through child lists.", "quantifier": "all child graphs", "why_tests_cant": "arbitrary graphs", "anchors": ["diffsync/helpers.py:DiffSyncSyncer.sync_diff_element", "diffsync/store/__init__.py:BaseStore.remove"]}
{"id": "C52", "title": "Protected models survive a sync", "statement": "A destination object flagged IGNORE, or SKIP_UNMATCHED_DST and absent from the source, is still stored and unchanged after any sync.", "quantifier": "all contents, flags and outcomes; the classes of the destination keep the identifiers given to them", "why_tests_cant": "all flag assignments", "anchors": ["diffsync/enum.py:DiffSyncModelFlags", "diffsync/helpers.py:DiffSyncSyncer.sync_diff_element"]}
{"id": "C53", "title": "Every attempt is logged under its own object", "statement": "For each create/update/delete attempt a sync logs exactly one outcome record, whose model and unique_id are those of the object concerned.", "quantifier": "all diffs and outcomes", "why_tests_cant": "all trees", "anchors": ["diffsync/helpers.py:DiffSyncSyncer.log_sync_status"]}
{"id": "C54", "title": "Diff.dict() is faithful", "statement": "For a diff without two elements of the same type and name, dict()[type][name] exists exactly for the children that have differences, holds exactly that child's get_attrs_diffs() entries, and recursively the same rendering of its children.", "quantifier": "all diff trees, all reordering Diff subclasses", "why_tests_cant": "unbounded trees; entries could overwrite each other", "anchors": ["diffsync/diff.py:Diff.dict", "diffsync/diff.py:DiffElement.dict"]}
{"id": "C55", "title": "Adapter class declarations are validated", "statement": "An Adapter subclass is accepted exactly when every model class attribute is stored under its own type name and every top_level entry names a model class attribute; otherwise its declaration raises AttributeError.", "quantifier": "all adapter class declarations", "why_tests_cant": "unbounded declarations", "anchors": ["diffsync/__init__.py:Adapter.__init_subclass__"]}
{"id": "C56", "title": "tree_string draws every key once", "statement": "The drawing of a nested dictionary consists of the root line and exactly one line per key at any depth: each key's line stands before those of the keys below it and in the order of the dictionaries, shows the key, and is indented by one level per enclosing key, with a bar where the enclosing dictionary goes on below.", "quantifier": "all nested dictionaries", "why_tests_cant": "unbounded nesting", "anchors": ["diffsync/utils.py:_tree", "diffsync/utils.py:tree_string"]}
{"id": "C57", "title": "Consistent stores and lasting identities after any history", "statement": "Whatever sequence of library calls a program has made (creating objects, assigning attributes, add/update/remove, get and its variants, get_or_*/update_or_*, add_child/remove_child, diffs, syncs with arbitrary user methods and failures, dict/load), on any number of adapters with local and Redis stores: everything an adapter holds under (model name, unique id) is a complete instance of the class the adapter declares for that name, has that unique id, and has child lists without duplicates; get_all returns each object that get finds, once; and an object that exists keeps its class and its unique id for ever.", "quantifier": "all finite histories of API calls with all arguments, whether the calls return or raise, all user methods, all adapters over local and Redis stores", "why_tests_cant": "It is an invariant of all reachable states: a test runs finitely many histories, and the states that break such invariants come from unusual interleavings of failing calls.", "anchors": ["diffsync/__init__.py: Adapter, DiffSyncModel", "diffsync/store/local.py: LocalStore", "diffsync/store/redis.py: RedisStore", "diffsync/helpers.py: DiffSyncDiffer, DiffSyncSyncer"]}
{"id": "C58", "title": "The text of a diff shows exactly the differences", "statement": "diff.str() is \"(no diffs)\" exactly when has_diffs() is false. It reports every create, delete and update anywhere in the diff: the element's type and name and the side that lacks it, or each differing attribute with both values. Nothing else is shown: the text does not depend on elements that neither differ nor contain a difference, on attributes that are equal, nor on the attribute values of elements that only one side has.", "quantifier": "all diffs of any depth and any ordering methods, all values and value formats, all indents", "why_tests_cant": "The text is assembled recursively from arbitrary trees, and an element can be dropped or printed without reason at any depth.", "anchors": ["diffsync/diff.py: Diff.str, DiffElement.str"]}
{"id": "C59", "title": "The text of an adapter shows all its contents and changes nothing", "statement": "adapter.str() changes no object, store or server content and calls no user method. It shows every object held under a top-level model name and, at any depth, every stored child; a child that is listed but not stored is reported in the text and does not raise. It fails only where the nesting exceeds Python's recursion limit. The text depends only on the contents, not on the kind of store. (Assumes that the stored objects belong to this adapter; an object that was added to two adapters shows its children as the first one has them.)", "quantifier": "all adapters over local and Redis stores, all contents and nestings, all value formats, all indents", "why_tests_cant": "It ranges over all contents, including dangling and cyclic child lists, and over both kinds of stores.", "anchors": ["diffsync/__init__.py: Adapter.str, DiffSyncModel.str", "diffsync/store/local.py: LocalStore.get", "diffsync/store/redis.py: RedisStore.get"]}
{"id": "C60", "title": "Lookups fail only in the documented ways", "statement": "get by unique id returns the stored object or raises ObjectNotFound, get_or_none returns it or None, and neither raises anything else or changes any contents. With a dictionary of identifiers both raise ValueError exactly for a model name that stands for no class of the adapter, and KeyError exactly for a missing identifier, whatever is stored; otherwise they do the same as for the unique id made of the identifier values, and further entries of the dictionary do not matter.", "quantifier": "all adapters over local and Redis stores, all contents, all model arguments (name or class), all ids and dictionaries", "why_tests_cant": "Which exception reaches the caller depends on every combination of model argument, identifier and contents; get_or_none must swallow one exception and no other.", "anchors": ["diffsync/__init__.py: Adapter.get, Adapter.get_or_none", "diffsync/store/__init__.py: BaseStore._get_uid, BaseStore._get_object_class_and_model", "diffsync/store/local.py: LocalStore.get", "diffsync/store/redis.py: RedisStore.get"]}
{"id": "C61", "title": "Calls that succeeded are in effect after the sync, whatever else fails", "statement": "When sync_from/sync_to returns, or raises one of the exceptions about object handling, what each successful call asked for is there: a created object is stored under the unique id of its identifiers, with the given values and defaults for the others; an updated object carries the new values and keeps its other values (in a store that keeps the objects themselves); a deleted object is not stored. Later failures, refusals or exceptions undo none of it. Exempt are objects that went along with a deleted object flagged SKIP_CHILDREN_ON_DELETE and, when another kind of exception escapes, the very last call made.", "quantifier": "all adapters and diffs, all user methods and failure points, all flags, both kinds of store", "why_tests_cant": "Failures can occur at any call, in any combination and with any nesting; later elements might undo what earlier ones did.", "anchors": ["diffsync/helpers.py: DiffSyncSyncer.sync_diff_element, DiffSyncSyncer.sync_model", "diffsync/__init__.py: DiffSyncModel.create, DiffSyncModel.update, DiffSyncModel.delete, Adapter.sync_from"]}
{"id": "C62", "title": "Objects refer to the adapter that holds them", "statement": "After any history of calls, the objects that an adapter holds in a local store, and all objects that get, get_all and get_by_uids return from a local or Redis store, have obj.adapter set to an adapter with that store; so have the objects that a sync created. remove(obj) unsets obj.adapter unless it leaves the adapter empty. The program is asked to mind adapters: not to add an object to a local store, or to remove it from a store, while obj.adapter is an adapter with objects in another store, and to call update of a local store with objects of that store only. (Without that it fails: update stores an object with no adapter as it is, and removing an object of one store from another store unsets its adapter.)", "quantifier": "all finite histories of API calls with arbitrary user methods, failures and exceptions, both kinds of store, any number of adapters", "why_tests_cant": "It is an invariant of arbitrarily long histories that mix stores, syncs and failures; str() and remove depend on it.", "anchors": ["diffsync/store/local.py: LocalStore.add, LocalStore.update", "diffsync/store/redis.py: RedisStore._get_object_from_redis_key", "diffsync/store/__init__.py: BaseStore.remove", "diffsync/__init__.py: DiffSyncModel.create_base, Adapter.__len__"]}
{"id": "C63", "title": "What a Redis store finds on the server", "statement": "count() of a Redis store is the number of keys on the server that match the glob pattern diffsync:<store id>:*, get_all(model) returns the values of the keys that match diffsync:<store id>:<model>:*, each once, and get_all_model_names() returns what is between the second and the third colon of the keys that match diffsync:<store id>:*, whatever characters the store id and the model name contain (? stands for one character, * for any number, [...] for one of the listed characters and ranges, a backslash quotes). A store whose id and model names have no brackets and backslashes sees all its own objects: what get finds, get_all returns. (Wildcards in a store id make it see objects of other stores too; brackets make get_all and count miss objects that get finds.)", "quantifier": "all contents of the server, all store ids and model names", "why_tests_cant": "The tests use one or two fixed store ids on an otherwise empty server; the claim is about all ids and all other keys on the server.", "anchors": ["diffsync/store/redis.py: RedisStore.get_all, RedisStore.count, RedisStore.get, RedisStore.get_all_model_names, RedisStore._get_key_for_object"]}
{"id": "C64", "title": "Clients of different Redis stores on one server do not disturb each other", "statement": "While any number of clients use one Redis server at the same time, each sending its commands one by one, a client that is the only one to write to its store gets the results, and leaves the contents of its store, that it would get and leave alone on the server, in every interleaving and wherever any client stops. The others may be any programs that do not write to keys of that store, in particular clients of stores with other ids (ids and model names free of ':' and glob characters). Alone on the server each method does what it does as one step, so everything proved about single calls carries over.", "quantifier": "all interleavings of the commands of any number of clients, all programs of the clients, all crash points, all behaviours of SCAN that Redis allows (any order, repeated keys, keys that come and go)", "why_tests_cant": "Tests run one client; interleavings with other clients cannot be enumerated.", "anchors": ["diffsync/store/redis.py: RedisStore.add, get, get_all, get_by_uids, update, remove_item, count, get_all_model_names", "diffsync/store/__init__.py: BaseStore.remove"]}
{"id": "C65", "title": "Concurrent clients of the same Redis store", "statement": "While clients use the same store at the same time: get and get_by_uids return each object as it was stored at a moment of the call, or raise ObjectNotFound because it was missing at a moment of the call; get_all returns only such objects and misses none that was there all the time, and raises (ObjectNotFound) only if an object vanished meanwhile; after add or update returns, an equal object was stored at a moment of the call, and add raises ObjectAlreadyExists only if a different object was stored at a moment of the call; removing succeeds only if the object was there at a moment of the call and missing at another. At every moment each object is stored under its own type and unique id. (add is no lock: two clients adding different objects under the same id can both succeed; so can two clients removing the same object.)", "quantifier": "all interleavings of the commands of any number of clients with any programs, all crash points, all behaviours of SCAN that Redis allows", "why_tests_cant": "Tests run one client; the claims are about all interleavings.", "anchors": ["diffsync/store/redis.py: RedisStore.add, get, get_all, get_by_uids, update, remove_item"]}
{"id": "C66", "title": "What a sync does whatever user code does", "statement": "Even if create, update, delete, the progress callback and sync_complete change the adapters in any way while sync_from runs: every create, update and delete call is asked for by an element of the diff and each element gets at most one; if an object and one below it both get a call, either the upper one came first and returned an object, or it is to be deleted and came second; progress is reported as 1, 2, 3, ... and never beyond the number of elements; an exception raised in a call ends the sync with that exception, with no further call and no sync_complete, unless it is an object exception and CONTINUE_ON_FAILURE is set; an exception of the callback ends the sync at once; sync_complete is called at most once, last, and exactly when something was attempted and nothing was raised; and what is returned is the diff that was applied.", "quantifier": "all user code (arbitrary computations on the adapters), all states, adapters, flags, diff classes and diffs in which only deletions are below deletions", "why_tests_cant": "Tests use a few well-behaved methods; the claim is about arbitrary user code that interferes with the running sync.", "anchors": ["diffsync/helpers.py: DiffSyncSyncer.perform_sync, sync_diff_element, sync_model, incr_elements_processed", "diffsync/__init__.py: Adapter.sync_from, sync_complete"]}
{"id": "C67", "title": "A client of a Redis store that is killed leaves it consistent", "statement": "Whenever a process that uses a Redis store is killed, or loses its connection: during get, get_all, get_by_uids, count or get_all_model_names the contents are as before; during add, update or remove of one object they are as before or as after the call; during remove with remove_children the objects that are gone are the object and some below it, none of them without one that lists it, and everything else is as before. A program that adds (or updates) objects one after the other leaves the first ones stored and none of the others, and running it again ends with the result and contents of an uninterrupted run. Removing with children again does not complete an interrupted removal: it raises ObjectNotFound.", "quantifier": "all contents of the server, all objects and lists of objects, all points at which the process is killed", "why_tests_cant": "ranges over every crash point of every call on every store", "anchors": ["diffsync/store/redis.py:RedisStore", "diffsync/store/__init__.py:BaseStore.remove"]}
{"id": "C68", "title": "Having no diffs carries over along a chain of adapters", "statement": "If a diff between adapters a and b reports nothing and one between b and c reports nothing, a diff between a and c reports nothing, provided that b has the top-level types, child types and attributes that a and c share, no object is excluded from diffs by its model flags, unmatched objects are not skipped, and equality of attribute values is transitive. So syncs can be chained: after b is synced from a and c from b, with all calls successful, a and c agree everywhere and a diff between them reports nothing. (With IGNORE or the SKIP_UNMATCHED flags this fails.)", "quantifier": "all triples of adapters with any stores and contents (local stores for the syncs), all diff classes and flags; for the syncs, the classes of the destinations make equal values of the attribute values of the objects to be created", "why_tests_cant": "Tests compare two fixed adapters; the claim is about all triples of trees of any size and depth.", "anchors": ["diffsync/helpers.py: DiffSyncDiffer", "diffsync/diff.py: DiffElement.get_attrs_diffs, has_diffs", "diffsync/__init__.py: Adapter.diff_from, sync_from"]}
{"id": "C69", "title": "A diff depends on nothing but the contents of the two adapters", "statement": "Take two pairs of adapters that hold the same objects under the same model names and unique ids: same class, model flags, identifiers, short name and attributes, and child lists with the same members in any order. Whatever kinds of store they use, in whatever order their objects were loaded, whatever other fields the objects have and whatever diff class is used, the two diffs have the same elements at every depth, up to order, has_diffs(), len(), and every count of summary() including skip are the same, and one diff returns exactly if the other does. Loading objects with new keys into an adapter in any order, local or Redis, never fails, gives the same contents, and leaves every other store as it was.", "quantifier": "all pairs of source and target adapters with equal contents (of any size, depth and kind of store), all flags, all diff classes that only reorder, all recursion limits; all sets of objects to load, in every order", "why_tests_cant": "A test compares a few loading orders of one data set in one store; the independence is from every order, store and class at once, for every data set.", "anchors": ["diffsync/helpers.py: DiffSyncDiffer", "diffsync/diff.py: Diff, DiffElement", "diffsync/store/local.py: LocalStore.add", "diffsync/store/redis.py: RedisStore.add"]}
{"id": "C70", "title": "What a successful sync leaves is determined by the contents it started from", "statement": "After a sync in which every call of user code succeeds, the destination is exactly this: objects that take part in the comparison and are missing in the source are gone; those missing in the destination are there as instances of the destination's class with the source's identifiers and attributes and defaults otherwise; those present on both sides have the source's value for each attribute that both have with different values, and every other field as before; objects that take no part are as they were, except that exactly those below a deleted object flagged SKIP_CHILDREN_ON_DELETE go along with it; and an object lists a child exactly if both are there and either side listed it before, once. So two such syncs from equal contents, with the same flags, leave equal contents, whatever the diff class, the user's code, the adapters' names, the loading order and the source's kind of store.", "quantifier": "all source and local destination adapters of any size and depth that can be reconciled, all flags, all diff classes that only reorder, all user code, all recursion limits", "why_tests_cant": "Tests compare the result of a few syncs against literals; that the result is a function of the contents, and which one, concerns every data set, order, class and hook.", "anchors": ["diffsync/__init__.py: Adapter.sync_from, Adapter.sync_to", "diffsync/helpers.py: DiffSyncSyncer", "diffsync/diff.py: DiffElement.get_attrs_diffs"]}
{"id": "C71", "title": "Retrying a sync leads where an undisturbed sync leads, but for orphans", "statement": "A sync is tried any number of times with the same flags; in each attempt calls of user code may fail, raise, or end it half-way. If an attempt in which every call succeeds follows, the destination then holds what it would hold had the first attempt succeeded: the same objects with the same classes, flags, identifiers, short names, attributes and children. The only exceptions are objects of the destination that the source does not have: one of them may be left, unchanged, if it is below an object that an earlier attempt deleted; no later sync with these flags deletes it. There are no exceptions if objects missing in the source are not to be deleted (SKIP_UNMATCHED_DST), or if all objects that are missing in the source either have no children or are flagged SKIP_CHILDREN_ON_DELETE: what is below such an object is, after any attempts, there as a whole with it or gone as a whole with it. Every object of the source that takes part is in the destination in the end, with no differing attribute.", "quantifier": "all source and local destination adapters of any size and depth that can be reconciled and whose destination classes do not default to IGNORE, all flags, all numbers of attempts, all user code and diff classes in each attempt, all points at which attempts end; the classes of the destination make equal values of the attribute values of the objects to be created (otherwise see C72)", "why_tests_cant": "Tests retry a few failures; the claim is about every sequence of failures and every point at which an attempt ends.", "anchors": ["diffsync/__init__.py: Adapter.sync_from", "diffsync/helpers.py: DiffSyncSyncer.sync_diff_element, sync_model"]}
{"id": "C72", "title": "Classes that alter the values they are given: two syncs converge", "statement": "A new instance holds what pydantic makes of the values given for its fields (an int of a string of digits, say), an updated instance the values as given. So after a sync in which all calls succeed an object can still differ from the source: exactly those can that the sync created, in exactly those attributes of which their class made another, unequal value. A second such sync with the same flags makes only update calls, on such objects and with such attributes, and then diff_from reports no diffs; a third makes no call. (If identifiers are altered, syncs need not converge at all: the object is created under another unique id, and the next sync raises ObjectAlreadyExists.)", "quantifier": "all source and local destination adapters that can be reconciled, all flags, all ways in which classes parse attribute values, all diff classes that only reorder, all user code whose calls succeed", "why_tests_cant": "Tests use classes and values that fit; the claim is about every annotation, value and data set.", "anchors": ["diffsync/__init__.py: DiffSyncModel.create_base, DiffSyncModel.update_base, Adapter.sync_from", "diffsync/helpers.py: DiffSyncSyncer.sync_model"]}
{"id": "C73", "title": "The comparison decides the calls, whatever user code does meanwhile", "statement": "While sync_from runs, create, update, delete, sync_complete and the progress callback may do anything to both adapters: add, remove or change objects, raise. They can keep calls from being made, but cannot cause others or alter arguments. Every create call gets the type, identifiers and attributes of an object that the source had when the sync started and that took part in the comparison, with none in the destination at its place. Every update call gets exactly the attributes, at least one, in which an object of the source and the one of the destination at its place then differed, with the source's values. For each delete call there was an object in the destination at a compared place where the source had none. With SKIP_UNMATCHED_SRC there is no create call, with SKIP_UNMATCHED_DST no delete call.", "quantifier": "all adapters that can be compared, all flags, all diff classes, all user code, over every effect it may have on the adapters, and syncs that fail or return", "why_tests_cant": "A test fixes what user code does; the claim is about every program that the user may plug in.", "anchors": ["diffsync/__init__.py: Adapter.sync_from", "diffsync/helpers.py: DiffSyncSyncer.sync_diff_element, DiffSyncSyncer.sync_model", "diffsync/diff.py: DiffElement.get_attrs_diffs"]}
{"id": "C74", "title": "Work on one store leaves the others alone", "statement": "Take two adapters with different stores, local or Redis (two labels on one server count as different), and a program that does not put one object into two local stores. Adding, updating, removing, get_or_*/update_or_* helpers, loading, changing objects of the first adapter, and syncs into it, with any user methods, any supplied diff and any failures, any number of them in any order, leave the second adapter with exactly the objects, values, children and order it had; a local store moreover keeps the very same objects. The two adapters never come to hold the same object. In particular a sync never changes its source.", "quantifier": "all reachable worlds, all adapters on all pairs of stores, all finite sequences of API calls about other stores, all user methods and failures", "why_tests_cant": "A test tries a few calls on a few stores; isolation has to hold for every sequence of calls, including those that fail half-way, and for every pair of store labels.", "anchors": ["diffsync/store/local.py: LocalStore", "diffsync/store/redis.py: RedisStore._get_key_for_object, RedisStore.get_all", "diffsync/store/__init__.py: BaseStore", "diffsync/__init__.py: Adapter.add, Adapter.update, Adapter.remove, Adapter.sync_from, Adapter.load_from_dict"]}
{"id": "C75", "title": "After a sync, get_status() says what that sync did", "statement": "When a sync returns or raises, each object in a local destination store for which create, update or delete was called says what that one call left: the status and message that the user's method set, or SUCCESS with the message of the base method if that was called, or UNKNOWN. It never shows what an earlier sync left, nor the status of another object's call. An object for which no such call was made was in the store before, and its status is what it was or, if the sync came by, UNKNOWN with an empty message. An object that the diff has no element for keeps its status.", "quantifier": "all adapters with a local store, all diffs whose elements are about distinct objects, all flags, all user methods (what they return, raise and set), and every point where a sync may stop", "why_tests_cant": "A test looks at the status after a few outcomes of one call; the claim is for every combination of outcomes over a whole tree, including deletions in natural order, where children are handled between the lookup of an object and its own call.", "anchors": ["diffsync/__init__.py: DiffSyncModel.get_status, DiffSyncModel.set_status, DiffSyncModel.create, DiffSyncModel.update, DiffSyncModel.delete", "diffsync/helpers.py: DiffSyncSyncer.sync_diff_element, DiffSyncSyncer.sync_model"]}
{"id": "C76", "title": "A new adapter is empty, named and separate; a new Redis store is connected", "statement": "A new adapter without a given store contains nothing, and constructing it changes no other adapter's contents; constructed over an existing store it has that store's contents at once. str(adapter) is its type (by default the name of the class) or, if a different name was given, the type and the name in quotes, so that adapters of one class with different names have different texts. RedisStore() returns exactly if the server named by its arguments answered: the URL's if a URL is given, else the host's; it raises ValueError if both a URL and a host with a non-zero port are given and ObjectStoreException if neither is given or the server does not answer. Its keys carry the given store id or, if none is given, a new one.", "quantifier": "all names, types, classes, states of other adapters and stores, all arguments and all behaviours of the network", "why_tests_cant": "Tests construct a few adapters and stores with a reachable or unreachable server; the claim is for all combinations of arguments (None, empty, zero) and of server behaviours.", "anchors": ["diffsync/__init__.py: Adapter.__init__, Adapter.__str__, Adapter.__repr__", "diffsync/store/__init__.py: BaseStore.__init__", "diffsync/store/local.py: LocalStore.__init__", "diffsync/store/redis.py: RedisStore.__init__"]}
{"id": "C77", "title": "A sync between reconcilable adapters raises nothing of its own", "statement": "When source and destination can be reconciled (forests of stored objects within the recursion limit, of classes that fit one another; the destination in memory or in a Redis store), sync_from and sync_to raise only what a create, update or delete method of the user raised; that call was the last one, and under CONTINUE_ON_FAILURE the exception is not one of ObjectNotCreated, ObjectNotUpdated, ObjectNotDeleted. So the sync returns whenever no method raises, even if any number of them return None or do not apply their change, and under CONTINUE_ON_FAILURE whenever they raise only those three. No action is refused: every outcome record follows a call.", "quantifier": "all reconcilable contents of source and destination, in memory or in Redis stores, all flags, all diff classes that reorder, and all behaviours of the user's methods, including arbitrary sequences of failures", "why_tests_cant": "Whether bookkeeping raises depends on the contents of the destination after any sequence of successes and failures of earlier calls in the same sync; tests cover single failures on a fixed tree.", "anchors": ["diffsync/helpers.py: DiffSyncSyncer.perform_sync, sync_diff_element, sync_model", "diffsync/__init__.py: Adapter.sync_from, Adapter.sync_to, DiffSyncModel.add_child, DiffSyncModel.remove_child", "diffsync/store/__init__.py: BaseStore.remove, BaseStore.remove_item", "diffsync/store/local.py: LocalStore.add", "diffsync/store/redis.py: RedisStore.add, RedisStore.remove_item"]}
{"id": "C78", "title": "What a sync leaves to do is exactly what failed in it", "statement": "Let source and destination be such that they can be reconciled. After a sync_from or sync_to, whether it returned or raised and whatever create, update and delete did: the objects a comparison with the same flags finds to create are those found before for which no create call returned an object; the attributes it finds to differ are those found before, of objects for which no update call passed the new values on to super().update(), whatever that call then returned or raised; the objects it finds to delete are those found before for which no delete call returned an object, except those below an object whose delete call did. The next diff consists of exactly these. The same holds after any number of syncs.", "quantifier": "all reconcilable contents with destination classes that do not default to IGNORE, all flags, all diff classes that reorder, all behaviours of user code, any number of syncs with any ends", "why_tests_cant": "The claim relates the whole remaining diff to the set of calls that failed, for every pattern of failures over every tree and also for aborted syncs; tests check one failure on one tree.", "anchors": ["diffsync/helpers.py: DiffSyncSyncer.sync_diff_element, sync_model, DiffSyncDiffer.calculate_diffs", "diffsync/__init__.py: Adapter.sync_from, Adapter.sync_to, Adapter.diff_from, DiffSyncModel.update"]}
{"id": "C79", "title": "Two syncs merge two adapters", "statement": "Let two adapters of the same models, in separate local stores, be such that they can be reconciled, with no object excluded from diffs by its own flags. Sync b from a with SKIP_UNMATCHED_DST and then a from b with no flags (or any without SKIP_UNMATCHED_SRC). If all calls succeed, both syncs return and both adapters hold the union: every compared object of a is in both, in a with the values it had and in b with equal attributes; every compared object that only b had is in both, in b as it was and in a with the same identifiers and attributes; children are those listed on either side; everything else is as it was. Neither sync makes a delete call, and the second makes only create calls, for objects a did not have. If the second sync compares everything, diffs in both directions are then empty.", "quantifier": "all contents of the two adapters that can be reconciled and are reached by any history of public operations, all diff classes that reorder, all other flags", "why_tests_cant": "Tests merge one pair of small trees at most; the claim is that nothing is lost or overwritten on either side for any pair of trees, including objects below unmatched parents.", "anchors": ["diffsync/__init__.py: Adapter.sync_from", "diffsync/helpers.py: DiffSyncDiffer.calculate_diffs, diff_object_list, diff_object_pair, DiffSyncSyncer.perform_sync, sync_diff_element", "diffsync/enum.py: DiffSyncFlags.SKIP_UNMATCHED_DST"]}
{"id": "C80", "title": "What constructors, update and load_from_dict make of the values they are given", "statement": "A model constructed with keyword arguments has exactly the fields of its class: each holds what the field's annotation reads from the value given, or the default; if a required field is missing or a value is refused, ValidationError is raised. load_from_dict with any data adds to the adapter one such instance per entry of a declared type, top level types first, in order, until an entry is refused (ValidationError) or its unique id is taken (ObjectAlreadyExists); what was added before stays, nothing that was stored is replaced, and no other adapter changes. obj.update(attrs) sets exactly the given attributes, to the values as given (they are not read by the annotation), and sets the status; with an unknown attribute it raises ValueError with those before it set.", "quantifier": "all model classes that pydantic and diffsync accept, all annotations, all keyword arguments, all data dictionaries of any size and all adapter contents", "why_tests_cant": "A test loads one well-formed dictionary into an empty adapter; the claim is about all data, including data that is refused part of the way, and all previous contents.", "anchors": ["diffsync/__init__.py: DiffSyncModel.create_base, DiffSyncModel.update_base, Adapter.load_from_dict, Adapter.add, Adapter._get_initial_value_order", "diffsync/store/local.py: LocalStore.add"]}
{"id": "C81", "title": "A diff with any progress callback", "statement": "Whatever a progress callback given to diff_from / diff_to does - read or change the adapters, keep state, raise - it is called with strictly increasing positive current values and one constant total, the number of objects in the two stores when the diff began; when the diff returns, the last value is the number of models processed. If a call raises, the diff raises that very exception, makes no further call and does nothing more. A callback that only looks (leaves existing objects and stores alone) does not influence the diff: the calls and the result are those of the diff without callback, unless a call raises, in which case the calls made are the first of those; and no adapter, object or Redis data is changed.", "quantifier": "all callbacks (arbitrary computations on the state of the program, deterministic given that state), all adapter contents, local or Redis stores, all flags", "why_tests_cant": "Tests use one callback that asserts something about its arguments; the claim is about every callback, including those that raise at any of the calls or alter the adapters meanwhile.", "anchors": ["diffsync/helpers.py: DiffSyncDiffer.incr_models_processed, DiffSyncDiffer.calculate_diffs, DiffSyncDiffer.diff_object_list, DiffSyncDiffer.diff_child_objects", "diffsync/__init__.py: Adapter.diff_from, Adapter.diff_to"]}
{"id": "C82", "title": "A diff computed while other clients write to the Redis stores", "statement": "diff_from, when one or both adapters have a Redis store that other processes write to meanwhile, sends only commands that read. If it returns, its elements report, one for one, distinct objects at the top: each side of an element is what was stored under that type and unique id at some moment of the diff (or nothing, if nothing was stored at some moment); the elements below are those for the children that these objects list, with objects that were stored at some moment, and so on at all depths; nothing that the flags leave in is missing that was stored all the time or that a reported object lists. If it raises ObjectNotFound, some object was stored at one moment and not at another, or a listed child was missing at some moment; other exceptions have the reasons they have without concurrency, in objects stored at some moment. If nobody writes to the two stores, the diff describes their contents, whatever happens to other stores; alone on the server it is what diff_from computes. The diff need not describe any single moment, and may raise ObjectNotFound although both stores are fine at every moment.", "quantifier": "all numbers of clients running any programs of commands, all interleavings of commands, all answers of SCAN that Redis permits, all contents, all flags, local and Redis stores in any combination", "why_tests_cant": "The outcome depends on the interleaving of commands of several processes; a test runs one interleaving, usually the sequential one.", "anchors": ["diffsync/helpers.py: DiffSyncDiffer", "diffsync/store/redis.py: RedisStore.get_all, RedisStore.get_by_uids, RedisStore.count", "diffsync/__init__.py: Adapter.diff_from"]}
{"id": "C83", "title": "A sync from a source that other clients write to while it is compared", "statement": "When a diff is computed by diff_from while other processes write to the source's Redis store, and then handed to sync_from of a destination with a local store, every create call gets the identifiers and all the attributes of one object that the source stored at some moment of the diff; every update call is made on an object the destination stores, with exactly the attributes, and the values, in which an object of the same type and unique id, stored by the source at some moment, differs from it; every delete call is made on an object the destination stores for which there is a reason: it is a top-level object that the source did not store at some moment, or an object of the destination lists it which the source stored at some moment without listing it, or which is itself gone in this sense. So no call invents or mixes the data of two versions of an object, though different calls may rest on different moments.", "quantifier": "all numbers of clients running any programs of commands, all interleavings, all answers of SCAN that Redis permits, all contents, flags, CRUD implementations and their outcomes", "why_tests_cant": "It depends on the interleaving of the commands of several processes, and on which calls succeed; a test runs one schedule with one choice of data.", "anchors": ["diffsync/helpers.py: DiffSyncDiffer, DiffSyncSyncer", "diffsync/store/redis.py: RedisStore.get_all, RedisStore.get_by_uids", "diffsync/__init__.py: Adapter.diff_from, Adapter.sync_from"]}
{"id": "C84", "title": "The list helpers", "statement": "intersection(l1, l2) is l1 without the entries that are not in l2, in the order and with the repetitions of l1. symmetric_difference(l1, l2) has exactly the entries that are in one list and not in the other, each once, in ascending order, and does not depend on the order of its arguments. (The differ takes the types to compare, and the order in which it compares and counts them, from these.)", "quantifier": "all pairs of lists of type names, with repetitions", "why_tests_cant": "Order and multiplicity depend on the whole lists; a test tries a few short ones.", "anchors": ["diffsync/utils.py: intersection, symmetric_difference"]}
{"id": "C85", "title": "Diffs made by hand", "statement": "However Diff and DiffElement objects were made and filled by Diff(), DiffElement(), add_attrs(), add() and add_child(): get_children() yields exactly the elements that were added, by type in the order in which the types first occurred, and in the order of the calls within a type; add raises ObjectAlreadyExists exactly if an element with this type and name is there already, and then changes nothing. len(), summary(), has_diffs() and str() are those of the tree of the elements below, if there is one, even if an element was added in several places. There is one exactly if no element was put below itself; otherwise len() and summary() end with RecursionError. Every tree in which siblings differ in type or name can be made.", "quantifier": "all histories of calls on any number of diff and element objects, with shared elements and cycles, all recursion limits", "why_tests_cant": "Sharing and cycles, and the order of the calls, make infinitely many histories; the tests build a few small trees.", "anchors": ["diffsync/diff.py: Diff.add, Diff.groups, Diff.get_children, Diff.__len__, Diff.summary, Diff.has_diffs, Diff.str, DiffElement.__init__, DiffElement.add_attrs, DiffElement.add_child, DiffElement.__len__, DiffElement.summary, DiffElement.has_diffs, DiffElement.str"]}
{"id": "C86", "title": "A sync into a Redis store that is killed", "statement": "sync_from into an adapter whose store is on a Redis server, when its process is killed between any two commands to the server, leaves the server as it would be if the sync had not been killed but the CRUD methods had raised an exception (not an ObjectCrudException) at some call: the effects of all calls before are there, and none of that call or later ones; or as it is at the end of the sync. The one exception is the deletion of an object flagged SKIP_CHILDREN_ON_DELETE, of which a part may have been done: the object is gone and some of those that are removed along with it, each after one that lists it. So what is stored after the kill was stored before exactly like that, or the diff creates it; what was stored before is still there unless the diff deletes it or it goes along with a deleted object that is flagged; and other stores on the server are untouched. Objects left over by a removal that was killed half-way are not removed by another sync.", "quantifier": "all diffs, contents, flags, CRUD implementations and outcomes, all kill points, local and Redis sources, all orders in which SCAN answers", "why_tests_cant": "There is a kill point between any two commands, and what commands are sent depends on the diff, the contents and what the CRUD methods do; a test can interrupt one run at a few points.", "anchors": ["diffsync/helpers.py: DiffSyncSyncer.perform_sync, DiffSyncSyncer.sync_diff_element, DiffSyncSyncer.sync_model", "diffsync/store/redis.py: RedisStore.add, RedisStore.remove_item, RedisStore.get, RedisStore.count", "diffsync/store/__init__.py: BaseStore.remove"]}
{"id": "C87", "title": "A sync while other clients use the Redis server", "statement": "If no other client of the Redis server writes to the store that a sync writes to, nor to the one that it reads its source from, then, whatever the other clients do to other stores and however their commands and those of the sync are interleaved, the sync returns or raises what it would alone on the server, its process ends with the same memory, and its stores have the same contents; at every time in between they have contents that the sync alone would leave if it were killed at some point. So any number of syncs into different stores, from local sources or from stores that none of them writes to, do not disturb each other.", "quantifier": "all numbers of clients, all interleavings of their commands, all diffs, contents, flags and CRUD implementations", "why_tests_cant": "The interleavings of the commands of several processes cannot be enumerated, and a test sees only those that the server happens to choose.", "anchors": ["diffsync/helpers.py: DiffSyncSyncer.perform_sync, DiffSyncSyncer.sync_diff_element, DiffSyncSyncer.sync_model", "diffsync/store/redis.py: RedisStore.add, RedisStore.remove_item, RedisStore.get, RedisStore.count", "diffsync/store/__init__.py: BaseStore.remove"]}
{"id": "C88", "title": "Several syncs into the same Redis store at the same time", "statement": "Any number of syncs into the same Redis store at the same time, each of which may be killed at any point, while other clients do not write to that store: at every time, what is stored in it was stored there before exactly like that, or is an object, under its own type and unique id, that one of the diffs creates, with exactly the values that the diff gives; and what was stored before is still there exactly like that unless one of the diffs deletes it, or it goes along with an object flagged SKIP_CHILDREN_ON_DELETE that one of the diffs deletes. There is no protection beyond that: of two syncs that create the same object with different values both may succeed, and the object of one is lost; or one of them may raise.", "quantifier": "all numbers of syncs, all interleavings and kill points, all diffs of the form that diff_from computes, all contents, flags and CRUD implementations", "why_tests_cant": "A race shows itself in few of the interleavings; the claim is about all of them, for all diffs and numbers of processes.", "anchors": ["diffsync/helpers.py: DiffSyncSyncer.perform_sync, DiffSyncSyncer.sync_diff_element, DiffSyncSyncer.sync_model", "diffsync/store/redis.py: RedisStore.add, RedisStore.remove_item, RedisStore.get, RedisStore.count", "diffsync/store/__init__.py: BaseStore.remove"]}
{"id": "C89", "title": "Whole calls of sync_from into the same Redis store at the same time", "statement": "Any number of processes call sync_from at the same time on adapters with the same Redis store, each with a source in its own memory or in another store on the server (which other clients may change meanwhile), and each of them may be killed at any point, while other clients do not write to that store. At every time, what is stored in it was stored there before exactly like that, or is an object, under its own type and unique id, made by the destination's class from the identifiers and attributes of an object that one of the sources had; and what was stored before is still there exactly like that, unless one of the sources did not have the same object at its place all the time (on some way from the top level along lists of children, as they were stored at times of the execution), or it goes along with such an object flagged SKIP_CHILDREN_ON_DELETE. The diff that a call returns reports only what was stored at times of the execution. If no other client writes to the stores of source and destination, the diff describes what source and store hold when the call begins, and the call ends like a sync with this diff that has the server for itself, or the diff raises for a reason in what they hold and nothing is changed. A call that is passed a diff with changes applies that one, or raises DiffClassMismatch before it sends anything; a diff without changes is ignored. There is no protection beyond that: a call may raise ObjectNotFound because another one deletes what it has just listed.", "quantifier": "all numbers of calls, all interleavings and kill points, all sources, contents, flags, CRUD implementations and recursion limits, all orders in which SCAN answers", "why_tests_cant": "The diff of one call reads while another call writes; a test sees one of the interleavings, and the claim must hold for all of them and for all contents.", "anchors": ["diffsync/__init__.py: Adapter.sync_from, Adapter.diff_from", "diffsync/helpers.py: DiffSyncDiffer.calculate_diffs, DiffSyncSyncer.perform_sync, DiffSyncSyncer.sync_diff_element, DiffSyncSyncer.sync_model", "diffsync/store/redis.py: RedisStore.get_all, RedisStore.get_by_uids, RedisStore.get, RedisStore.add, RedisStore.remove_item, RedisStore.count", "diffsync/store/__init__.py: BaseStore.remove"]}
{"id": "C90", "title": "Clients of a Redis server do not wait for each other, and come to their ends", "statement": "Whatever the clients of a Redis server do (store operations, diffs, syncs, any mixture), and wherever some of them have been killed, a client that has not come to its end can always take its next step: no operation waits for another client. In an execution without end each client takes only finitely many steps, however the others interfere, so a client that is not held up forever comes to its end, with a result or an exception; if only finitely many clients have something to do, every execution comes to an end, and then all of them have. A lookup, an update and a count are one command; add and remove_item are at most two; get_by_uids is at most one for each unique id, and get_all is one SCAN and at most one more for each key that it returns.", "quantifier": "all numbers of clients, all operations that they are in, all contents, all interleavings, finite and infinite, all orders in which SCAN answers, all points at which clients stop", "why_tests_cant": "Absence of deadlock and termination are statements about all schedules, infinite ones included; a test run that ends says nothing about the others.", "anchors": ["diffsync/store/redis.py: RedisStore.get, RedisStore.add, RedisStore.update, RedisStore.remove_item, RedisStore.get_all, RedisStore.get_by_uids, RedisStore.count", "diffsync/__init__.py: Adapter.sync_from, Adapter.diff_from"]}
{"id": "C91", "title": "What a sync into a Redis store leaves, and exactly when it converges", "statement": "A sync into a Redis store in which all calls of user code succeed returns, and finds the object of every element of the diff. If it deletes nothing along with an object flagged SKIP_CHILDREN_ON_DELETE, it leaves exactly this: the objects that only the destination had are gone; those that only the source had are stored, as instances of the destination's class with the source's identifiers and attributes, default flags and no children; everything else is stored exactly as before, objects that were updated and lists of children included; and the source is as it was. The same diff computed again raises ObjectNotFound if the sync deleted an object below one that the source has too, and returns otherwise; then it plans the same updates again, with the same attributes, the creation again of every object created below another one, and nothing else. So the sync converges if and only if it planned no updates, created objects only at the top level, and deleted none below an object that the source has.", "quantifier": "all pairs of a source (in memory or in another Redis store) and a destination in a Redis store that can be reconciled (the hypotheses of C21), all flags, all diff classes that reorder only, all hooks and user code that succeeds", "why_tests_cant": "The second diff depends on every object, every list of children and every place in both trees; tests look at a few stores, and hide which syncs do not converge.", "anchors": ["diffsync/store/redis.py:RedisStore.add", "diffsync/store/redis.py:RedisStore._get_object_from_redis_key", "diffsync/helpers.py:DiffSyncSyncer.sync_diff_element", "diffsync/helpers.py:DiffSyncDiffer.calculate_diffs", "diffsync/__init__.py:Adapter.sync_from", "diffsync/__init__.py:DiffSyncModel.add_child"]}
{"id": "C92", "title": "Which objects may be compared, and how two lists of them are paired", "statement": "Comparing two lists of objects (diff_object_list) pairs them by unique id: one pair for each unique id in either list, in the order in which the ids first occur, the source's first; of several objects of one list with one id the last counts, and what only one list has is paired with nothing. Before anything is compared every pair is checked (validate_objects_for_diff): the check passes exactly if the two objects of every full pair have the same type, the same short name and equal identifiers. Otherwise the first pair that fails decides the exception, TypeError if the types differ and ValueError if only short name or identifiers do; then nothing has been changed and nothing compared.", "quantifier": "all lists of objects, of any types, with any ids repeated, on both sides; all lists of pairs for the check; all states of the program", "why_tests_cant": "The first failing pair, the order of the pairs and which of several objects counts depend on the whole of both lists; tests try one mismatch in lists of one or two objects.", "anchors": ["diffsync/helpers.py:DiffSyncDiffer.diff_object_list", "diffsync/helpers.py:DiffSyncDiffer.validate_objects_for_diff"]}
{"id": "C93", "title": "The order of the elements of a diff", "statement": "The elements of a diff returned by diff_from/diff_to stand in a fixed order, at the top and below every element. At the top they come by type, in the order of the destination's top_level, and only types in both adapters' top_level; below an element they come by child type in the order in which the class of the source's object declares them (the destination's object's class, if the source has none), and only types both classes declare. Of one type those that the source has come first, in the order of its get_all() or of its object's list of children, then those that only the destination has, in its order. What the flags exclude is left out and changes nothing in the order of the others. A diff class without order methods yields the children from get_children() in just this order, so that one type is never taken up again after another, and a sync makes its calls in it.", "quantifier": "all pairs of adapters with consistent contents, local or Redis, all trees of any depth and width, all flags and diff classes, all comparisons that return", "why_tests_cant": "The order results from several dictionaries and lists built at every level from two inputs; tests compare a few small diffs, mostly as dicts, which ignore order.", "anchors": ["/repo/diffsync/helpers.py:DiffSyncDiffer.calculate_diffs", "/repo/diffsync/helpers.py:DiffSyncDiffer.diff_object_list", "/repo/diffsync/helpers.py:DiffSyncDiffer.diff_child_objects", "/repo/diffsync/diff.py:Diff.add", "/repo/diffsync/diff.py:Diff.get_children", "/repo/diffsync/utils.py:intersection"]}
{"id": "C94", "title": "The calls of a sync, in order, read off the contents of the two adapters", "statement": "A sync from one adapter into another, all of whose create/update/delete calls succeed, makes exactly the calls that the contents of the two adapters say, in this order and with these arguments. It takes the places at the top in the order of the diff, and at each place, before the next: if both sides have the object and some attributes that both have differ, an update call with those attributes and the source's values; if only the source has it, a create call with its identifiers and attributes; if only the destination has it, a delete call; then the calls of the places below, in the same way. The calls below an object to be deleted that is flagged NATURAL_DELETION_ORDER come before its own; below one flagged SKIP_CHILDREN_ON_DELETE there are none; places the flags exclude have none. A sync that stops at an exception has made a first part of this list. There is only one such list, so the order of the calls is deterministic. It needs a diff class whose order methods keep the order of the elements.", "quantifier": "all pairs of adapters with consistent contents between which a sync can converge, the destination local or Redis, all trees of any depth and width, all flags, all user hooks, all syncs whose calls all succeed (or, for the first part, before which no object was found missing)", "why_tests_cant": "Tests check the calls of a handful of fixed pairs, mostly without regard to order; the claim is about the whole sequence for every pair of trees and every flag combination.", "anchors": ["/repo/diffsync/helpers.py:DiffSyncSyncer.perform_sync", "/repo/diffsync/helpers.py:DiffSyncSyncer.sync_diff_element", "/repo/diffsync/helpers.py:DiffSyncSyncer.sync_model", "/repo/diffsync/helpers.py:DiffSyncDiffer.calculate_diffs", "/repo/diffsync/diff.py:DiffElement.get_attrs_diffs", "/repo/diffsync/diff.py:Diff.get_children"]}
{"id": "C95", "title": "The calls of a sync when some of them fail", "statement": "Whatever the create/update/delete calls of a sync return or raise, the calls it makes, together with their outcomes, are those that the contents of the two adapters before it say, in this order: the places are taken as in C94, each with the call that C94 names; if that call does not bring an object (it raised, or returned None), no calls are made for the places below it; the calls below an object to be deleted flagged NATURAL_DELETION_ORDER have been made before, and below one flagged SKIP_CHILDREN_ON_DELETE there are none, whatever the outcome. When the sync returns (with CONTINUE_ON_FAILURE, or when no call raised), these are all its calls; when it raises, they are the beginning of such a list. Two such lists for the same contents are equal or first differ in the outcome of a call that both make, so two syncs over the same contents make the same calls for as long as the calls have the same outcomes. With a diff class whose order methods reorder the elements, all this holds with the places of one type rearranged, at the top and below each place; the types keep their order.", "quantifier": "all pairs of adapters with consistent contents between which a sync can converge, the destination local or Redis, all trees, all flags, all user hooks with any sequence of outcomes, all diff classes that keep or only change the order", "why_tests_cant": "Tests let one fixed call fail in one fixed tree; the claim is about every pattern of failures in every pair of trees.", "anchors": ["/repo/diffsync/helpers.py:DiffSyncSyncer.perform_sync", "/repo/diffsync/helpers.py:DiffSyncSyncer.sync_diff_element", "/repo/diffsync/helpers.py:DiffSyncSyncer.sync_model"]}
{"id": "C96", "title": "The object that ObjectAlreadyExists carries", "statement": "When a store, a diff or a list of children refuses an object with ObjectAlreadyExists, the attribute existing_object of the exception is the object that is there already (as the exception's documentation says), so that the caller can compare the two; the store, diff or list is unchanged.", "quantifier": "all objects and elements, all contents of local and Redis stores and of diffs made by hand, all lists of children", "why_tests_cant": "The tests check that the exception is raised, not what it carries; a test with one object added twice cannot tell the two apart.", "anchors": ["/repo/diffsync/exceptions.py:ObjectAlreadyExists", "/repo/diffsync/store/local.py:LocalStore.add", "/repo/diffsync/store/redis.py:RedisStore.add", "/repo/diffsync/diff.py:Diff.add", "/repo/diffsync/__init__.py:DiffSyncModel.add_child"]}
{"id": "C97", "title": "A diff that was looked at first", "statement": "A user may compute a diff, look at it, and hand it to sync_from(diff=...) later. As long as the two adapters have the contents again that they had when it was computed (and can be reconciled), the sync makes the calls that a sync computing its own diff with the flags of that diff makes, given the same outcomes; it returns that diff, or passes on what the last call raised; when all calls succeed it leaves the same contents. This holds for all flags and diff classes of the sync (the flags that choose what is compared have no effect then, CONTINUE_ON_FAILURE does). Right after the diff was computed the two syncs are the same in every detail. An empty diff is not used: the sync computes its own.", "quantifier": "all pairs of adapters that can be reconciled (local or Redis destination), all flags and diff classes of the diff and of the sync, all user methods, everything that happened between computing the diff and the sync", "why_tests_cant": "The tests sync with a diff just computed on one data set; they cannot vary contents, flags, failures and what happens in between.", "anchors": ["/repo/diffsync/__init__.py:Adapter.sync_from", "/repo/diffsync/__init__.py:Adapter.diff_from", "/repo/diffsync/helpers.py:DiffSyncSyncer.perform_sync"]}
{"id": "C98", "title": "What a sync leaves when some calls fail", "statement": "Whatever the calls of a sync return or raise, and whether the sync itself returns or raises, what the destination holds afterwards is given by the contents of the two adapters before and by which of the calls did their work: of the objects that it did not have those are there that a call created, instances of the destination's class with the source's identifiers and attributes and defaults otherwise; of the objects that it had exactly those are gone that a call deleted and those below a deleted object flagged SKIP_CHILDREN_ON_DELETE, so that what is below such an object goes with it as a whole or stays with it as a whole; all others are there, with their class and flags, and with their values unless a call updated them, in which case the attributes that differed have the source's values and the rest is as it was; the children of an object are those it has on either side as far as they are there. So two syncs from the same contents whose calls have the same outcomes one after the other make the same calls and leave the same objects.", "quantifier": "all pairs of adapters that can be reconciled with a local destination, all flags and diff classes, all user methods and all patterns of failures, for the last part: diff classes that do not reorder", "why_tests_cant": "There are exponentially many patterns of failing calls for one pair of adapters; tests try one failing method.", "anchors": ["/repo/diffsync/helpers.py:DiffSyncSyncer.sync_diff_element", "/repo/diffsync/helpers.py:DiffSyncSyncer.sync_model", "/repo/diffsync/__init__.py:Adapter.sync_from"]}
{"id": "C99", "title": "Records of unchanged objects", "statement": "Without LOG_UNCHANGED_RECORDS a sync logs nothing about objects that are the same on both sides. With it, every such object that the diff lists has exactly one record, of level debug and status success, naming it, when the sync returns and every object above it resulted in an object; so their number is the no-change count of the summary. An object below one whose call failed has none.", "quantifier": "all diffs, outcomes of calls and flags", "why_tests_cant": "all trees and all patterns of failing calls", "anchors": ["diffsync/helpers.py:DiffSyncSyncer.log_sync_status", "diffsync/helpers.py:DiffSyncSyncer.sync_model", "diffsync/enum.py:DiffSyncFlags.LOG_UNCHANGED_RECORDS"]}
{"id": "C100", "title": "Warnings that no object resulted", "statement": "A sync warns that no object resulted only right after the record of a failed attempt, naming the same object and action (a user method that returned nothing or, under CONTINUE_ON_FAILURE, one that raised or an action that was refused), or about an object that is to be left as it is and is not in the destination: it was not when the sync began or has been removed along with one above it. Conversely every user method that does not return an object has its record and right after it this warning, unless it raised and the exception ends the sync. And when the sync returns, an object that is to be left as it is but was not in the destination when it began is warned of, unless there is a warning about one above it.", "quantifier": "all diffs, computed or given, all flags, all user methods and patterns of failures", "why_tests_cant": "all trees and all patterns of failing calls; tests look at one failing method", "anchors": ["/repo/diffsync/helpers.py:DiffSyncSyncer.sync_diff_element", "/repo/diffsync/helpers.py:DiffSyncSyncer.sync_model"]}
{"id": "C101", "title": "What a removal with children reports", "statement": "remove(obj, remove_children=True) of a stored object warns exactly about the entries of the child lists of the removed objects that led to no removal. So about each child there are as many warnings as there are entries for it in the lists of the removed objects, less one if it was itself removed (and is not obj); the warnings and the removed objects together are one more than the entries. Each warning names a removed object and a child it lists which is not there afterwards; the child was not stored to begin with, or is obj itself, or is listed more than once. In a sync there are such warnings only after a successful delete call for an object flagged SKIP_CHILDREN_ON_DELETE.", "quantifier": "all contents of a local or Redis store, with missing ids, ids listed twice, shared children and cycles; any recursion limit of at least the number of stored objects; for syncs: all diffs without two elements for one object, all flags and user methods", "why_tests_cant": "all graphs of child lists; the tests remove a tree with one missing child", "anchors": ["/repo/diffsync/store/__init__.py:BaseStore.remove", "/repo/diffsync/__init__.py:Adapter.remove"]}
