{
 "C43": [
  "partial",
  "Injectivity proved for single identifiers and for strings without '__' that do not end in '_'; refuted in general (C43_not_injective). Lookup by dict and by unique id proved equal."
 ],
 "C09": [
  "proved",
  "Strict order by (type, name), determinism of sorting, what == compares, all operators between elements with different type or name. C09_not_total and C09_both_greater record that the operators do not fit together when only attributes differ."
 ],
 "C06": [
  "proved",
  "skip is characterised exactly (C06_skip_exact), as a function of the contents (C06_skip_determined). That it counts models, as one may expect, is false: a matched pair that is excluded counts once (C06_hidden_pair_counts_once)."
 ],
 "C37": [
  "partial",
  "count() as the sum over all models and len() are proved for both stores. count(model) = len(get_all(model)) as stated is false for the empty name (local, C37_empty_name_counts_all) and for names with upper-case letters (Redis, C37_redis_count_lowercases); what count(model) is in all cases is proved exactly (C37_count_model_local, C37_count_model_redis)."
 ],
 "C39": [
  "partial",
  "Proved for local stores, and for Redis stores but for one point: there the update variants leave the stored object as it was when there is one (C39_redis_update_or_instantiate_partial, C39_redis_update_or_add_partial prove that, and what they return; witness C39_redis_update_lost)."
 ],
 "C49": [
  "partial",
  "Exact for Redis. For local stores every stored model is listed; the converse is false (C49_phantom_name). C49_model_names_local says exactly which names are listed after any sequence of operations: those of models that any operation was about."
 ],
 "C35": [
  "partial",
  "That nothing is compared and that the supplied diff is what is returned is proved for every non-empty diff, in every state and for any user code (C35_not_recomputed, C35_not_recomputed_open). That every call is one prescribed by the diff is proved for diffs without attribute values outside the declared attributes and with only deletions below deletions (GoodDiff, true of every computed diff), and false without: C35_mixed_deletion. False for empty diffs: C35_empty_diff_ignored."
 ],
 "C42": [
  "partial",
  "False as stated: C42_updates_not_persisted (in general: what is updated, and every changed child list, is stored as before), with witnesses C42_redis_changes_lost and C42_second_sync_raises. What does hold is proved: a sync into a Redis store only adds and removes (C42_redis_adds_and_removes_partial), and when all calls succeed exactly the created objects are there and the deleted ones gone (C42_redis_contents_partial). C91 says exactly what the next diff shows, and exactly when such a sync converges."
 ],
 "C52": [
  "partial",
  "Proved for every run and outcome unless the object is removed along with an ancestor flagged SKIP_CHILDREN_ON_DELETE, where it is false: C52_removed_along."
 ],
 "C53": [
  "partial",
  "False as stated for one case, and exactly which is proved. There is exactly one record for each attempt, with the right action, level and status, in both directions for every sync (C53_call_is_recorded, C53_record_has_call). The record of a call names the object of the call if and only if the object is not deleted after others below it in the diff (NATURAL_DELETION_ORDER); in that case it names what the record before it names, which is one below (C53_record_names, C53_natural_deletion_misreports)."
 ],
 "C96": [
  "partial",
  "False as stated: existing_object is always the object that was refused, and in a local store never the one that is there (C96_local_partial), in a Redis store never one with the stored contents (C96_redis_partial), in a diff the one that is there only if the same element was added twice (C96_diff_partial). That the store or diff is unchanged, and all about add_child (which stores no objects, only unique ids), is proved."
 ]
}