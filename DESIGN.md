# Formal model of networktocode/diffsync in Lean 4 — design

## 1. Approach

The Python code is modelled function by function as total, computable Lean functions, and the
properties in `properties.jsonl` are proved as theorems about those functions, for all inputs,
histories and behaviours of user code.  The layers are

| module | models |
| --- | --- |
| `Verif/Py/*` | Python dictionaries (insertion ordered), `str.join`, `==` and `str()` of opaque values |
| `Verif/Model/Enum`, `Err` | `enum.py`, `exceptions.py` |
| `Verif/Model/Refused` | `ObjectAlreadyExists.existing_object`, and the functions that raise it with this attribute |
| `Verif/Model/Utils` | `utils.py` |
| `Verif/Model/Obj` | `DiffSyncModel` (`__init__.py` 61-428) |
| `Verif/Model/Diff` | `Diff`, `DiffElement` (`diff.py`), including `summary`, `dict`, orderings |
| `Verif/Model/World` | Python heap, stores, user-method oracle, trace; state+exception monad |
| `Verif/Model/Glob` | the patterns of Redis `SCAN` |
| `Verif/Model/Store` | `BaseStore`, `LocalStore`, `RedisStore` (`store/*.py`) |
| `Verif/Model/SyncerOpen` | `DiffSyncSyncer` and `sync_from` once more, with user code that may do anything to the adapters |
| `Verif/Model/RedisCmd` | `RedisStore` once more, command by command, for concurrent clients |
| `Verif/Model/DiffRef` | diffs and elements as objects with references |
| `Verif/Model/SyncCmd` | the syncer with a Redis destination, as the sequence of commands that it sends |
| `Verif/Model/SyncFromCmd` | `sync_from` with a Redis destination, diff included, as the sequence of commands that it sends |
| `Verif/Model/DiffCmd` | the differ once more, as a client that sends commands |
| `Verif/Model/Differ` | `DiffSyncDiffer` (`helpers.py` 34-281) |
| `Verif/Model/Syncer` | `DiffSyncSyncer` (`helpers.py` 284-473) |
| `Verif/Model/Adapter` | `Adapter` (`__init__.py` 431-913) |
| `Verif/Model/Render`, `RenderAdapter` | `str()` of diffs, elements, models and adapters |
| `Verif/Model/Tests`, `Concrete` | concrete values and classes of the examples |
| `Verif/Conform/*` | the project's own unit tests (`/repo/tests/unit`: fixtures, expected summaries, texts, dictionaries, exceptions, call orders) transcribed and evaluated by the kernel on the model: tests of the model, not proofs of properties |
| `Verif/Spec/*` | small specifications used in theorem statements, independent of the model's helpers |
| `Verif/Lemmas/*` | helper lemmas |
| `Verif/Props/*` | the property theorems `Cnn_*`, each beside a concrete instance meeting its hypotheses (larger instances in `*Ex`) |
| `THEOREMS.md` | the theorems of each claim with their comments and files (with `MANIFEST.json`, generated by `tools/manifest.py`) |

Main modelling decisions

* **Values** are an arbitrary type `V` with `PyVal.eq` (Python `==`, *not* assumed reflexive: NaN) and
  `PyVal.str`.  Laws of `eq` are explicit hypotheses where needed.
* **Objects** live on a heap (`Ref`), so aliasing (a store hands out the very object it holds) is
  modelled.  The diff-relevant data (class, field values, child lists, flags) is the record `Model`.
* **Errors** are values: every operation is `World → Except Err α × World`; the state at the moment
  of an exception is kept, so statements about aborted runs are about the state left behind.
* **User code** (`create`/`update`/`delete` overrides) is an arbitrary oracle with its own state: each
  call may apply the base method or not, return the object or `None`, set any status, or raise any
  exception.  "For all oracles" covers every failure schedule and crash point.
* **Recursion** of the differ, the syncer and `remove` takes a recursion limit, as Python's own;
  exhausting it is `RecursionError`, never a made-up result.
* **Redis** is one key/value map shared by all stores of a server, keys are the real strings, `SCAN`
  patterns are interpreted as the server does.
* **Contents** of an adapter are its *snapshot* (`snap`, `Verif/Spec/World`): what `get` finds and
  what `get_all` returns, as plain values.  Theorems about diffs, syncs and texts speak about
  snapshots, so they cover local and Redis stores alike.  `Adapter.Takes t` restricts Redis stores to
  store ids and model names without characters that are special in keys and patterns (`Plain`); local stores
  take every name.  Unique ids are never restricted.
* **Histories** (`Verif/Spec/History`) are arbitrary finite sequences of API calls on any number of
  adapters; `C57` proves that every reachable state has the properties (`World.OK`, complete
  instances, duplicate-free child lists) that the other theorems assume.

## 2. Trusted base

* Lean 4.33.0's kernel.  No own axioms, no `sorry`, no `native_decide`/`bv_decide`.  Each theorem depends on at most
  `propext`, `Quot.sound` and `Classical.choice`; `AXIOMS.txt` lists them for each theorem of the
  manifest (regenerate with `tools/axioms.sh`).
* That the definitions in `Verif/Model` say what the Python code does.  They were transcribed by
  reading; each cites its source lines, and the modules under `Verif/Conform` run the
  project's own unit tests (test_diff, test_diff_element, test_diffsync, test_diffsync_model, test_diffsync_model_flags, test_redisstore,
  with the fixtures of conftest.py) on the model, with the results those tests expect.  Left out are tests of what is not modelled:
  messages of exceptions, log texts other than outcome records, `json()`, `__new__`, deprecations, the example scripts.
* The specifications in `Verif/Spec` and the theorem statements.  `seeded/LOG.jsonl` records wrong programs
  tried against them.

Modelled: see the table.  Not modelled:

* of pydantic: parsing of child lists and of `model_flags`, validators that look at several fields, `validate_assignment`.  Parsing of the
  scalar fields is modelled by a function from annotation and value to the parsed value or refusal, of which nothing is assumed: a
  constructor parses its arguments (not the defaults) and raises `ValidationError` if a required field is missing or a value is
  refused; assignment (`setattr` in `update`) does not parse, as without `validate_assignment`;
* subclasses overriding anything other than `create/update/delete`, `sync_complete` and the
  `order_children_*` methods; except in C66, user methods that modify other objects or adapters behind the
  syncer's back;
* threads, logging back ends (log records are modelled, their rendering is not), wall-clock behaviour;
* the attribute `store.adapter` of a store instance passed to several adapters, which is the adapter constructed last: the model uses
  the adapter through which an operation is called;
* Redis connection errors after construction (except that C67 covers that they end a call), key expiry, and, except in C64 and C65 and what builds on them (C82, C83, C87 to C90), `SCAN` returning a key twice; `.lower()` in
  `RedisStore.count` is modelled for ASCII letters;
* `__repr__` of models, `json()`, `Adapter.__new__`'s keyword bookkeeping, CPython's identity shortcut in `==`
  of containers;
* `DiffElement.__str__` (the Python rendering of dicts), `__str__` and the logger set-up of the stores, `log.py`,
  `logging.py`, the abstract methods of `BaseStore` that only raise `NotImplementedError`, and the hook
  `Diff.complete`, which does nothing in `/repo`: a subclass that changes the diff in it is outside the model.

## 3. Plan per property

Each line: what is modelled / how it is proved.  "Refuted" means that the model has a concrete witness against
the property as stated; the positive theorem then carries the suffix `_partial`.

* C01–C04 `DiffElement.action/get_attrs_diffs`: functions on association lists; case analysis and membership lemmas about filtered lists.
* C02, C05, C07 trees of elements: mutual structural recursion; induction over the tree; order methods are an arbitrary function field of the diff class.
* C06, C18 the differ's counter: a ledger of processed objects follows the pure reference differ; induction on recursion depth. What `skip` counts is specified by `PassedOver` (Verif/Spec/SkipCount) and proved exact; that it counts models is false (`C06_hidden_pair_counts_once`). Callback trace: invariant over the trace.
* C08 `Diff.add`: invariant over any sequence of adds.
* C09 lexicographic order on strings; what `==` compares; the operators that `functools.total_ordering` adds; `C09_not_total` and `C09_both_greater` record where they do not fit together.
* C10, C12–C17, C19, C20: the monadic differ is proved equal to a pure function of two snapshots (refinement); properties by induction on that function against specs in `Verif/Spec`.
* C11 the refinement lemma plus: store reads never change a snapshot.
* C21, C22, C31: convergence. The effect of the syncer on the destination map is characterised (refinement to a map-level specification) and the next diff is computed from it, under `CanConverge` (`Verif/Spec/Converge`): a local destination, the same model classes, listed children stored and listed once, at most one parent each, values with reflexive `==`, no skip flags. Each condition is there because the conclusion is false without it. `C21_after_any_history` derives the conditions that concern reachable states from C57.
* C23, C24, C27, C28, C32–C34, C52: invariants/trace properties over all oracles, by induction over the recursion, using a preservation calculus for the monad. C52 is refuted where an ancestor is deleted with SKIP_CHILDREN_ON_DELETE.
* C25, C26, C29, C30, C50, C51: the trace of calls against a plan computed from the diff.
* C35 case analysis; refuted for the empty diff. Otherwise nothing is compared, for any diff and any user code (`Pres` with the relation "no comparison is reported"); the calls are those of the diff for diffs of the shape that `diff_from` computes, refuted without (`C35_mixed_deletion`).
* C36–C41, C44, C49, C60: invariants over arbitrary operation sequences, refinement to a finite map; `remove_children` against graph reachability. Refuted parts: counting by the empty name or by names with capitals (C37), Redis update variants (C39), phantom names (C49). What the counts and the list of names are in every case, the refuted ones included, is stated exactly (`C37_count_model_local`, `C37_count_model_redis`, `C49_model_names_local`).
* C42 refuted, in general and by witnesses; the positive part is about what does reach the server: creations and deletions, from the
  frame of a Redis store (`RFrame`), C26 (every call is made) and C61 (successful calls are in effect).
* C43 injectivity of joining under the stated side condition, refuted without it.
* C45, C55 exactness of validation of class declarations.  C47, C56 nested dictionaries, induction.  C48 bit-level lemmas.
* C46 `dict()` then `load_from_dict` into an empty adapter of the same classes gives the same contents (local and Redis target); induction over the exported entries. `C46_dict_returns_iff` says exactly when `dict()` raises, by induction over the names, for any store in any state.
* C53 refuted for NATURAL_DELETION_ORDER; proved for syncs that delete no such object. For every sync: exactly one record for each attempt, with the right action, level and status, and the object it names is the right one exactly when the object is not deleted after others below it in the diff; then the record repeats the name in the record before it. The latter needs that every element below a deleted one ends with a record under its own logger binding (an induction over `syncElem` beside the event grammar).
* C54 `Diff.dict()`: the entry at a path is characterised for all diffs with distinct element names; induction over the tree.
* C57 invariant over all histories of API calls with arbitrary user methods, preserved by each call whether it returns or raises.
* C58 `Diff.str`: induction over the tree; substring relation `Appears`, and independence of everything that is not a difference by comparing with a blanked tree.
* C59 `Adapter.str`: refinement to a pure function of the snapshot; induction on the recursion limit and on the reachability relation `Beneath`.
* C61 the frame of each step, carried through the recursion: what a call did is untouched by later steps, since the elements of a diff have distinct keys. An update that passes its values on and then returns `None` counts too (`C61_passed_on_updates_take_effect`).
* C62 the invariant of C57 extended by `BackRefs`, for histories of a program that minds the adapters of objects (`D` of `ProgStep`); counterexamples for programs that do not.
* C63 `Spec/Glob.lean` says which strings a Redis glob pattern matches, as an inductive relation; the matcher of the model (`globMatch`) is proved to decide it, and `get_all`, `count` and `get_all_model_names` to visit the matching keys; counterexamples for ids with wildcards and brackets.
* C64, C65 the methods of the Redis store as sequences of commands (`Model/RedisCmd`), proved equal to the one-step methods when uninterrupted (`C64_alone_*`). Any number of clients, interleaved command by command (`Spec/Concurrent`); `SCAN` is a step with a beginning and an end that may see keys that come and go. C64 by simulation of the client's view of its store by a run alone; C65 by induction over the execution, speaking about the states it goes through. Races as concrete executions.
* C66 the syncer with user code as arbitrary computations on the state (`Model/SyncerOpen`); the events of a run follow a grammar (`OTr`), by induction on the recursion limit with a calculus for what no computation does (`Pres`); the claims by induction over the grammar. `C66_same_sync` relates it to `Model/Syncer`: with user code that leaves the adapters alone both are the same sync (a simulation, `Lemmas/OpenClosed`).
* C67 the command-by-command model of the Redis store (`Model/RedisCmd`) stopped after any number of commands (`Solo`); composed clients by lemmas about `bind` and `try`, removal by induction on the recursion limit with the list of removed objects as invariant; `C67_remove_not_resumable` shows the limit.
* C68 by induction over the places that a diff of the outer two adapters compares: each is compared in both other diffs; then C12 (no diffs iff agreement) and, for syncs, C21 and C23. Counterexamples with flags.
* C69 from the description of a diff that C10 proves of every returned one: it is carried over along a bijection of the places compared in the two pairs of adapters, by induction over the diff (the skip count by induction over the places passed over). Loading by induction over the objects, one step for each kind of store.
* C70 from the invariant behind C21 (who is stored, with which values, and who is listed by whom), read off at the end of the sync together with C23 for the objects that take no part; that two syncs end alike then needs only the two descriptions (`Synced`), the bijection of compared places of C69, and the case analysis over missing/both sides. What goes along with deleted objects, exactly (`Props/Along.lean`), is read off the invariant of C98.
* C71 by an invariant of attempts (`Partly`: what any number of syncs that may fail leave, relative to where they began), closed under one more attempt; then C70's description of a sync that succeeds is compared at the start and after the attempts. What takes part afterwards took part before (`Partly.back`), and conversely for objects of the source (`Partly.forth`); what is left over is below an object that is gone (`Partly.orphan`). Concrete: an attempt that leaves an orphan, one that does not. That what is below an object flagged SKIP_CHILDREN_ON_DELETE is never left over (`Props/RetryWhole.lean`) is C98 for each attempt. Objects that take no part (`Bystand`, in `Lemmas/Retried.lean`) change only by going along with an object that takes part; so nothing is assumed about flags of single objects.
* C72 from C70: what takes part after a sync took part before it, so it was created (values as parsed) or updated (values as given); hence no object is to be created in the second sync, and C21 applies to it. Concrete: VLAN numbers with leading zeros; refuted for identifiers (`C72_parsed_identifier`, `C39_parsed_identifier`).
* C73 by induction over the trace of a sync in the open model (C66): every call is asked for by an element, and every element of a computed diff describes a compared place (C01). `C73_plain` carries this to the closed model, so there it needs neither a clean destination nor classes that keep identifiers. Concrete: user code that removes and adds objects meanwhile.
* C74 the steps of C57 indexed by the store they are about (`StepOn`); the relation that each call establishes (`Evo`) extended by `Aside`: the tables and objects of other local stores, and the entries of other labels on the Redis server, are as before. Counterexample for a program that puts one object into two stores.
* C75 statuses are part of objects in the model; a relation between the states before and after a part of a sync (`StatTo`: for the keys concerned, the status of the stored object is the one left by the call among the events, or else the old one or UNKNOWN; for other keys it is unchanged) that composes when the parts make no call about common keys, by induction over `sync_diff_element`. Partial syncs and user methods that set their own status included. Redis stores hand out copies, whose statuses are not in the store, and are left out.
* C76 `Adapter.__init__`, `Adapter.__str__`, `Adapter.__repr__` and `RedisStore.__init__` as functions; what a client meets on the network is a function from the server addressed to answer, connection error or other exception, of which nothing is assumed. By case analysis; the contents of adapters by `snap`.
* C77 The invariant of C21 (what is stored at each key while a sync is under way, whatever user code does) gives that at every element the object is there or not as the action needs, that the bookkeeping succeeds and the object to be created can be constructed. By induction over the sync of an element: an exception is the result of the last call, and a record of an attempt follows a call. For a Redis destination (Lemmas/RedisErr, RedisErrStep) the invariant is another one: the objects handed to the syncer are copies, whose lists of children have the object of an element below if and only if the destination had it at the start (`RPar`), and what is stored for an element not yet reached is what was stored at the start (`AtStart`).
* C78 Combines C24 (what a partly successful sync leaves, `Partly`), C28 (only calls that take effect change contents) and C61 (every call that takes effect is in effect at the end, `Took`: an update takes effect when it passes its values to `super().update()`, whatever it then returns). The spec (`Spec/Remains.lean`) says what is to be done in terms of the two contents and the objects shown in the comparison; a separate theorem says this is what the computed diff contains.
* C79 `Spec/Merge.lean` says what the union of two contents is (`Merged`) and which adapters can be merged (`Mergeable`). The outcome theorem C70 is applied to both syncs; between them, the contents that the first one leaves are shown to be fit for a sync in the other direction (C57) and to be compared at the same objects. Emptiness of the diffs both ways by C21 and C13. Assumed: no object and no class flags exclude objects from diffs, `==` is an equivalence, and the classes take stored identifiers and attributes as they are.
* C80 `Spec/Load.lean` says what an instance is that a class reads from given values (`IsNew`, by what `PyVal.parse` makes of a value for an annotation), which entries of the data are taken (`toLoad`) and what it means to add objects (`Adds`). The two nested loops of `load_from_dict` are shown to be one loop over the entries; then induction over the entries. Local store only. Annotations are abstract: `PyVal.parse` is any function from annotation and value to a value or a refusal.
* C81 `Model/DifferOpen.lean` is the differ again, with the callback as an arbitrary computation called after every increment. For any callback: an invariant of every part of the differ (the events are a chain, every call returned or the last one raised and that is the result, `Went`). For callbacks that only look (`OnlyLooks`): the two differs run in lockstep (`Lock`), from worlds in which the adapters have equal contents. Simplification: instances are read when they are fetched, so that a callback that alters an instance already fetched is not seen to; `Lock` is about callbacks that do not. `Model/SyncCallback.lean` is `sync_from` with that differ; `C81_sync` reduces it to the diff followed by a sync with that diff given.
* C82 the differ as a program of commands (`Model/DiffCmd`), interleaved with arbitrary clients (`Spec/Concurrent`). `Can` abstracts an execution to the answers that are possible given the contents of the server at the moments of the diff; the spec (`Spec/DiffCmd`) says of an element that it reports a place seen at some moment. Induction over the differ's recursion for both results and exceptions; for stores that keep their contents the spec collapses to that of C10/C45 (`C82_undisturbed`), and a run alone equals `diff_from` (`C82_alone`). The mixing of moments and the spurious `ObjectNotFound` are concrete executions (`C82_mixed`, `C82_torn`).
* C83 composes C82 with the syncer: `DiffThenSync` (`Spec/SyncSeen`) is an execution in which a client computes the diff among others, followed by `sync_from` with that diff on a local destination. A diff that reports what was seen meets the conditions that C35 puts on a supplied diff, so each call is the one an element prescribes, and the element's data are those seen. `Gone` is the reason for a deletion, by induction from the top. Concrete mixed sync: `C83_mixed`. Not covered: a destination on Redis that others write to during the sync itself.
* C84 `Model/Utils` against membership, counts and `Pairwise (· < ·)`; induction over the lists; the symmetry from the uniqueness of a strictly ascending list with given members.
* C85 `Model/DiffRef`: diffs and elements as objects with references, filled by any history of `Diff()`, `DiffElement()`, `add_attrs`, `add`, `add_child`. An invariant over the history relates the two-level dictionary to the log of added elements; elements that are trees are related to `Model/Diff`, so that what is proved there holds for diffs made by hand; elements below themselves by a count of reachable elements.
* C86 `Model/SyncCmd`: the syncer as a client that sends commands to the server, with its own memory; killed means stopped between two commands. Each part of the client is shown to do what the part of `Model/Syncer` does (`RunsAs`), and what it leaves when killed is compared with the same computation for user code that gives up after `k` calls (`Kills`), by induction on the diff; the bounds on what is added and removed then follow from the frame of C42.
* C87 The client of C86 in the semantics of C64. All its commands are about keys of its two stores (`sync_about`); a client that sends only such commands sees the same replies as alone as long as the others spare these keys (`sees_exec`), so C86's `RunsAs` applies.
* C88 A logic for what a client may send, given what the replies tell it about what has been stored (`Talks`, `ClT`), shown by induction on the diff for the sync client: it sets only objects that an element creates, and deletes only keys that an element deletes or that were listed by an object that it read; then an invariant over the interleaved execution.
* C89 The diff client of C82 followed by the sync client of C86. What the sync sends is known for every diff (C88); which diffs can be computed is known from the moments of the execution (`Can.diff_ok`, `ReportsTop`); `Told` is the logic that joins the two: the replies come from the contents that the server has in the course of the execution. The elements of the diff are then traced to places in the source and in the store (`OnWay`). A source may be on the server too: what it held is then what was stored there at times (`FromJob.Had`), and what it kept is what was stored there all the time (`FromJob.Kept`); `C89_source_on_server` derives the assumptions about it from conditions on the start and on the clients. The isolated case goes through `sees_exec` and `RunsAs`.
* C90 Infinite sequences of steps of the clients of C65. A client is a well-founded tree of commands (`Proc`), since the model's recursion is bounded by Python's recursion limit and its loops run over lists, so termination is by induction over that tree for arbitrary interference; absence of waiting needs the invariant that a `SCAN` under way can be answered. Fairness is an assumption about one client only. What is not covered: a `SCAN` that the server itself never completes.
* C91 The sync of C42 (model of C25 on a Redis store), followed by the diff of C14. The contents after the sync come from C42 and the store invariants; every place of the second comparison is either a place of the first one or a created object at the top, which has no children (`Next.place`), and the elements there have the same sides. `AtTop`, `DeletesBelowKept` and `SyncedRedis` are in Spec/RedisNext.lean. `C91_goes_through` shows by C77 that such a sync returns and that no element lacks its object, as soon as all calls succeed. Hypotheses beyond those of C21: no `SKIP_CHILDREN_ON_DELETE` on deleted objects, and (for the second diff) no class with `IGNORE` as default.
* C92 `diffList`, `validatePairs` and `combine` of `Model/Differ.lean` on any lists (`Props/Validate.lean`). The keys of the combined dict are computed as
  insertions at the end and compared with `eraseDups` of the ids; the object of an id is the last of the list filtered by the id. The check is by
  induction on the list of pairs.
* C93 The order of the elements of a diff. `Spec/DiffOrder.lean` lists the places at the top and below a place in order (`topPlaces`, `childPlaces`), from the
  contents of the two adapters alone, and `InOrder` says that an element and all below it stand for them, position by position. `Props/DiffOrder.lean` proves it by
  induction on the recursion of the differ; that `get_children` keeps the order follows because no type occurs in two blocks. For a Redis store the order of
  `get_all` is that of the keys in the model's server; a real server may return another one, and the statement then refers to what it returned.
* C94 The calls of a sync, in order, read off the contents of the two adapters. `Spec/SyncOrder.lean` defines inductively which list of calls belongs to a list of
  places (`CallsFor`), from the two contents and the flags alone, without diffs or elements. `Props/SyncOrder.lean` joins C93 (which elements stand for which places,
  in order) with the plan of a sync (the calls of the elements) for local and Redis destinations. The diff class must keep the order (`dc.order g l = l`); the default one does.
* C95 The calls of a sync when some of them fail. `Spec/SyncOrder.lean` defines the lists of calls with outcomes that belong to a list of places (`RunFor`), from the two
  contents and the flags alone. `Lemmas/RunPlan.lean` proves by induction on the trace of a sync which calls with outcomes it makes for the elements of a diff, when no action is
  refused and no unchanged object is lost; that these do not happen between adapters that can be reconciled is the analysis of C77/C86. `Props/SyncRuns.lean` moves the result from
  elements to places (C93) and proves that two runs first differ in an outcome, never in a call. `Props/SyncAnyOrder.lean` does the same for diff classes with order methods (`RunAny`): a
  permutation of the elements of one type carries over to their places.
* C96 The object that ObjectAlreadyExists carries. `Model/Refused.lean` has the functions that raise it once more, with the attribute of the exception; they are proved to be the functions of
  the other files when it is forgotten. The property as documented is false (status partial): the attribute is the object that was refused. By case analysis, for every state.
* C97 A diff that was looked at first. `Spec/Kept.lean` says what such a diff is: one that `diff_from` computed in some world in which both adapters had the contents they have now. Computing
  again gives the same (a diff is a function of the contents), so the invariants of C22, C77 and C95 apply to it; they are proved for the sync that is given a diff. The exact equality right after
  computing is by unfolding `sync_from`.
* C98 What a sync leaves when some calls fail. `Spec/CallsLeave.lean` says what is left, given which calls did their work (`Did`, of C78). Proved from the invariant of the sync (C70), C28 (only
  calls that did their work change contents) and C78 (calls that did their work have their effect). That the result is determined is proved from the specification alone; that the outcomes
  determine which calls are made is C95. What goes along with a deleted object, and that it goes as a whole, is a second invariant of the sync (`Lemmas/Whole.lean`), by the same
  induction: of two objects above a third one is above the other, so that a delete call never removes a part of what is below a flagged object.
* C99 the debug records of a sync are read off its event grammar (`Tr`) by induction, paired with the elements they are about: a sub-permutation of the elements always, all elements without action when nothing is left without an object. The general completeness statement names the element above that has no object instead.
* C100 Warnings that no object resulted. By induction on the event grammar of a sync (`Tr`), in both directions: what comes right before a warning, and what comes right after a call that returned no object.
* C101 What a removal with children reports. `Spec/Removal.lean` says it as an account of listings (a child list entry of a removed object): each led to the removal of the child or has a warning. Proved by the induction of C40 once more, over any store that meets `DelSpec` (local and Redis), with the list of removed objects kept; the numbers and the reasons of warnings follow from the specification alone. For syncs: the event grammar (`Tr`) says that the bookkeeping after an action reports nothing unless children are removed along.
