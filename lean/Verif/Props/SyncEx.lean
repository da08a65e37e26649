import Verif.Props.SyncLog
import Verif.Props.SyncArgs
/-! # Concrete syncs that meet the hypotheses of the theorems about syncs, and counterexamples -/
set_option linter.unusedSectionVars false

namespace DS.Ex

theorem ad_untyped {k : Nat} {t : String} {c : ModelClass String} (h : Dict.get? (ad k).classes t = some c) : c.types = [] := by
  have := Dict.mem_of_get? h
  simp only [ad, List.mem_cons, List.not_mem_nil, or_false, Prod.mk.injEq] at this
  rcases this with ⟨rfl, rfl⟩ | ⟨rfl, rfl⟩ | ⟨rfl, rfl⟩ <;> rfl

theorem ad_keepsIds (k : Nat) (S : Snap String) : KeepsIdsOf (ad k) S := fun _ _ s _ _ h => keepsIds_untyped (ad_untyped h) _
theorem adR_keepsIds (k : Nat) (sid : String) (S : Snap String) : KeepsIdsOf (adR k sid) S :=
  fun _ _ s _ _ h => keepsIds_untyped (ad_untyped (k := k) h) _

theorem ad_valid (k : Nat) : (ad k).Valid where
  names t c h := by
    have := Dict.mem_of_get? h
    simp only [ad, List.mem_cons, List.not_mem_nil, or_false, Prod.mk.injEq] at this
    rcases this with ⟨rfl, rfl⟩ | ⟨rfl, rfl⟩ | ⟨rfl, rfl⟩ <;> rfl
  valid t c h := by
    have := Dict.mem_of_get? h
    simp only [ad, List.mem_cons, List.not_mem_nil, or_false, Prod.mk.injEq] at this
    rcases this with ⟨rfl, rfl⟩ | ⟨rfl, rfl⟩ | ⟨rfl, rfl⟩ <;> constructor <;> decide
  fields t c h := by
    have := Dict.mem_of_get? h
    simp only [ad, List.mem_cons, List.not_mem_nil, or_false, Prod.mk.injEq] at this
    rcases this with ⟨rfl, rfl⟩ | ⟨rfl, rfl⟩ | ⟨rfl, rfl⟩ <;> decide

/-- Worlds of sites, devices and interfaces are fit for syncs. -/
theorem ready_ad {w : World String (List Outcome)} (hw : w.OK) (k : Nat)
    (h : ∀ r, r < w.next → Dict.get? (ad 0).classes (w.heap r).m.type = some (w.heap r).m.cls) : SyncReady (ad k) k w where
  store := rfl
  valid := ad_valid k
  ok := hw
  inst t u r c hf hc := by
    have h1 := h r (hw.refs_lt _ _ _ _ hf)
    rw [(hw.key_ok _ _ _ _ hf).1] at h1
    exact Option.some.inj (h1.symm.trans hc)
  children t u m hm := by
    simp only [snap, ad] at hm
    obtain ⟨r, hf, rfl⟩ := Option.map_eq_some_iff.1 hm
    exact ((ad_valid k).valid _ _ (h r (hw.refs_lt _ _ _ _ hf))).children_nodup

/-- The key of an element, computed. -/
def keyOf? (A : Adapter String) (e : Elem String) : Option Key :=
  match Dict.get? A.classes e.type with
  | none => none
  | some c => (c.createUniqueId e.keys).map (fun u => (e.type, u))

theorem keyOf?_iff {A : Adapter String} {e : Elem String} {k : Key} : ElemKey A e k ↔ keyOf? A e = some k := by
  unfold ElemKey keyOf?
  constructor
  · rintro ⟨c, u, h1, h2, rfl⟩; rw [h1]; simp [h2]
  · intro h
    cases h1 : Dict.get? A.classes e.type with
    | none => rw [h1] at h; cases h
    | some c =>
      rw [h1] at h
      obtain ⟨u, h2, h3⟩ := Option.map_eq_some_iff.1 h
      exact ⟨c, u, rfl, h2, h3.symm⟩

theorem distinct_of {A : Adapter String} {es : List (Elem String)} (h : ((nodesL es).filterMap (keyOf? A)).Nodup) : DistinctKeys A es := by
  unfold DistinctKeys
  refine (List.pairwise_filterMap.1 h).imp ?_
  intro a b hab k hk hk'
  exact hab k (keyOf?_iff.1 hk) k (keyOf?_iff.1 hk') rfl

/-- The diff that the example adapters compute. -/
def dOf (w : World String (List Outcome)) (flags : Nat) : Diff String :=
  match (diffFrom 10 (ad 2) (ad 1) (DiffClass.default _) flags w).1 with
  | .ok d => d
  | .error _ => ⟨DiffClass.default _, [], 0⟩

/-- The sync of the example adapters. -/
def sync (w : World String (List Outcome)) (flags : Nat) := syncFrom 10 20 (scripted String) (ad 2) (ad 1) (DiffClass.default _) flags none w

theorem dOf_eq {w : World String (List Outcome)} {flags : Nat}
    (h : (diffFrom 10 (ad 2) (ad 1) (DiffClass.default _) flags w).1.toOption.isSome = true) :
    ∃ w', diffFrom 10 (ad 2) (ad 1) (DiffClass.default _) flags w = (.ok (dOf w flags), w') := by
  unfold dOf
  cases hd : diffFrom 10 (ad 2) (ad 1) (DiffClass.default _) flags w with
  | mk r w' =>
    rw [hd] at h
    cases r with
    | ok d => exact ⟨w', rfl⟩
    | error e => cases h

/-- A run of the example adapters. -/
theorem run_ex {w : World String (List Outcome)} (hw : w.OK) (flags : Nat)
    (h : ∀ r, r < w.next → Dict.get? (ad 0).classes (w.heap r).m.type = some (w.heap r).m.cls)
    (hd : (diffFrom 10 (ad 2) (ad 1) (DiffClass.default _) flags w).1.toOption.isSome = true)
    (hk : ((nodesL (dOf w flags).kids).filterMap (keyOf? (ad 2))).Nodup) :
    SyncRun 10 20 (scripted String) (ad 2) (ad 1) (DiffClass.default _) flags none w (dOf w flags) (sync w flags).1 (sync w flags).2 ∧
      Tidy (ad 2) (dOf w flags) := by
  obtain ⟨w', hw'⟩ := dOf_eq hd
  have hc : Comparable (ad 1) (ad 2) w := comparable_local hw rfl rfl
    (fun r hr => ((ad_valid 0).valid _ _ (h r hr)).children_nodup)
    (fun r hr r' hr' ht => by
      have h1 := h r hr; have h2 := h r' hr'
      rw [ht] at h1
      rw [Option.some.inj (h1.symm.trans h2)]) (by decide)
  exact ⟨SyncRun.of_computed hc (ready_ad hw 2 h).dst (ad_keepsIds 2 _) hw' rfl, by
    rw [(diffFrom_describes hc.ok hc.src_ok hc.dst_ok hc.fields hc.src_types hc.dst_types hc.top_nodup hw').2]
    exact fun g l => List.Perm.refl _, distinct_of hk⟩

theorem keyed_of {A : Adapter String} {es : List (Elem String)} (h : ∀ e ∈ nodesL es, (keyOf? A e).isSome = true) : Keyed A es := by
  intro e he
  obtain ⟨k, hk⟩ := Option.isSome_iff_exists.1 (h e ((mem_nodesL_iff _ _).2 he))
  exact ⟨k, keyOf?_iff.2 hk⟩

/-- The call an element prescribes, computed. -/
def prescribed? (A : Adapter String) (e : Elem String) : Option (CrudCall String) :=
  match keyOf? A e, e.action with
  | some _, some .create => some (.create e.type e.keys (e.plus.getD []))
  | some k, some .update => some (.update e.type k.2 (e.plus.getD []))
  | some k, some .delete => some (.delete e.type k.2)
  | _, _ => none

theorem prescribed?_iff {A : Adapter String} {e : Elem String} {c : CrudCall String} : prescribed? A e = some c → Prescribes A e c := by
  unfold prescribed? Prescribes
  cases hk : keyOf? A e with
  | none => intro h; cases h
  | some k =>
    have hk' := keyOf?_iff.2 hk
    have hkt : k = (e.type, k.2) := by
      obtain ⟨_, u, _, _, rfl⟩ := hk'; rfl
    rw [hkt] at hk'
    cases ha : e.action with
    | none => intro h; cases h
    | some a => cases a <;> (intro h; cases h; exact ⟨k.2, hk', rfl⟩)

/-- Some element of the diff prescribes a call which was made with an outcome of the given kind. -/
def madeCall (d : Diff String) (evs : List (Event String)) (q : Elem String → Outcome → Bool) : Bool :=
  (nodesL d.kids).any (fun x => match prescribed? (ad 2) x with
    | none => false
    | some c => evs.any (fun ev => match ev with
      | .call c' out => c' == c && q x out
      | _ => false))

theorem madeCall_iff {d : Diff String} {evs : List (Event String)} {q : Elem String → Outcome → Bool} (h : madeCall d evs q = true) :
    ∃ x c out, InTree x d.kids ∧ Prescribes (ad 2) x c ∧ Event.call c out ∈ evs ∧ q x out = true := by
  obtain ⟨x, hx, h⟩ := List.any_eq_true.1 h
  cases hp : prescribed? (ad 2) x with
  | none => rw [hp] at h; cases h
  | some c =>
    rw [hp] at h
    obtain ⟨ev, hev, h⟩ := List.any_eq_true.1 h
    cases ev <;> try (cases h)
    rename_i c' out
    simp only [Bool.and_eq_true, beq_iff_eq] at h
    obtain ⟨rfl, h'⟩ := h
    exact ⟨x, c', out, (mem_nodesL_iff _ _).1 hx, prescribed?_iff hp, hev, h'⟩

/-- A world with a script of outcomes for the user's methods. -/
def withEnv (w : World String (List Outcome)) (os : List Outcome) : World String (List Outcome) := { w with env := os }
theorem withEnv_ok {w : World String (List Outcome)} (h : w.OK) (os : List Outcome) : (withEnv w os).OK := ⟨h.loc_wf, h.tbl_wf, h.refs_lt, h.key_ok⟩
theorem withEnv_cls {w : World String (List Outcome)} (os : List Outcome)
    (h : ∀ r, r < w.next → Dict.get? (ad 0).classes (w.heap r).m.type = some (w.heap r).m.cls) :
    ∀ r, r < (withEnv w os).next → Dict.get? (ad 0).classes ((withEnv w os).heap r).m.type = some ((withEnv w os).heap r).m.cls := h
theorem w1_cls : ∀ r, r < w1.next → Dict.get? (ad 0).classes (w1.heap r).m.type = some (w1.heap r).m.cls := by decide +kernel

/-- All calls succeed. -/
theorem run1 : SyncRun 10 20 (scripted String) (ad 2) (ad 1) (DiffClass.default _) 0 none w1 (dOf w1 0) (sync w1 0).1 (sync w1 0).2 ∧ Tidy (ad 2) (dOf w1 0) :=
  run_ex w1_ok 0 w1_cls (by decide +kernel) (by decide +kernel)

/-- The first call (an update of the device `a`) returns nothing, the third raises. -/
def os2 : List Outcome := [{ result := .none }, {}, { result := .raises .objectNotDeleted, applied := false }]
theorem run2 (flags : Nat) (hf : flags = 0 ∨ flags = GF.CONTINUE_ON_FAILURE) :
    SyncRun 10 20 (scripted String) (ad 2) (ad 1) (DiffClass.default _) flags none (withEnv w1 os2) (dOf (withEnv w1 os2) flags) (sync (withEnv w1 os2) flags).1
      (sync (withEnv w1 os2) flags).2 ∧ Tidy (ad 2) (dOf (withEnv w1 os2) flags) := by
  rcases hf with rfl | rfl
  · exact run_ex (withEnv_ok w1_ok _) _ (withEnv_cls _ w1_cls) (by decide +kernel) (by decide +kernel)
  · exact run_ex (withEnv_ok w1_ok _) _ (withEnv_cls _ w1_cls) (by decide +kernel) (by decide +kernel)

/-- The source is empty; in the destination the site `lax` with its device `c` has the given flags, and the device has others. -/
def wDel (fs fd : Nat) (os : List Outcome) : World String (List Outcome) :=
  addModels (ad 2) [site "lax" ["c"] fs, device "c" "leaf" [] fd] (world0 String _ os)
theorem wDel_ok (fs fd : Nat) (os : List Outcome) : (wDel fs fd os).OK := addModels_ok _ _ _ (world0_ok _)

theorem wDel_cls (fs fd : Nat) (os : List Outcome) (r : Nat) (hr : r < (wDel fs fd os).next) :
    Dict.get? (ad 0).classes ((wDel fs fd os).heap r).m.type = some ((wDel fs fd os).heap r).m.cls := by
  have hn : (wDel fs fd os).next = 2 := rfl
  rw [hn] at hr
  match r, hr with
  | 0, _ => rfl
  | 1, _ => rfl

theorem run_del (fs fd flags : Nat) (os : List Outcome) (hd : (diffFrom 10 (ad 2) (ad 1) (DiffClass.default _) flags (wDel fs fd os)).1.toOption.isSome = true)
    (hk : ((nodesL (dOf (wDel fs fd os) flags).kids).filterMap (keyOf? (ad 2))).Nodup) :
    SyncRun 10 20 (scripted String) (ad 2) (ad 1) (DiffClass.default _) flags none (wDel fs fd os) (dOf (wDel fs fd os) flags) (sync (wDel fs fd os) flags).1
      (sync (wDel fs fd os) flags).2 ∧ Tidy (ad 2) (dOf (wDel fs fd os) flags) := run_ex (wDel_ok fs fd os) flags (wDel_cls fs fd os) hd hk

/-- The exception of a sync. -/
def errOf (r : Except Err (Diff String) × World String (List Outcome)) : Option Err := match r.1 with | .error x => some x | .ok _ => none

/-- The calls and records in a list of events. -/
def callsAndLogs (evs : List (Event String)) : List (Event String) := evs.filter (fun ev => match ev with | .call _ _ => true | .log _ _ _ => true | _ => false)

/-- **C53**, where it fails: the site `lax` is flagged NATURAL_DELETION_ORDER, so its device `c` is deleted first; the record that follows the
deletion of the site then says that the device was deleted. -/
theorem C53_natural_deletion_misreports : callsAndLogs (newEvents (wDel 16 0 []) (sync (wDel 16 0 []) 0).2) =
    [.call (.delete "device" "c") {}, .log .info ⟨some .delete, "device", "c"⟩ .success,
     .call (.delete "site" "lax") {}, .log .info ⟨some .delete, "device", "c"⟩ .success] := by decide +kernel

/-- C53: a sync in which the site is deleted after its device. -/
example := run_del 16 0 0 [] (by decide +kernel) (by decide +kernel)
example : ∀ e, InTree e (dOf (wDel 16 0 []) 0).kids → e.type = "site" → e.action = some .delete := fun e he => by
  have : ∀ e ∈ nodesL (dOf (wDel 16 0 []) 0).kids, e.type = "site" → e.action = some .delete := by decide +kernel
  exact this e ((mem_nodesL_iff _ _).2 he)

/-- C53: the call for the site and its record, among the events of that sync, and the element they are about. -/
theorem evDel_split : newEvents (wDel 16 0 []) (sync (wDel 16 0 []) 0).2 =
    (newEvents (wDel 16 0 []) (sync (wDel 16 0 []) 0).2).take 5 ++ .call (.delete "site" "lax") {} :: .log .info ⟨some .delete, "device", "c"⟩ .success ::
      (newEvents (wDel 16 0 []) (sync (wDel 16 0 []) 0).2).drop 7 := by decide +kernel
theorem elDel : ∃ e, InTree e (dOf (wDel 16 0 []) 0).kids ∧ Prescribes (ad 2) e (.delete "site" "lax") ∧ e.kids ≠ [] := by
  have : ∃ e ∈ nodesL (dOf (wDel 16 0 []) 0).kids, prescribed? (ad 2) e = some (.delete "site" "lax") ∧ e.kids.isEmpty = false := by decide +kernel
  obtain ⟨e, h1, h2, h3⟩ := this
  exact ⟨e, (mem_nodesL_iff _ _).1 h1, prescribed?_iff h2, fun h => by rw [h] at h3; cases h3⟩
example : ∃ e, InTree e (dOf (wDel 16 0 []) 0).kids ∧ DeletedAfterChildren (ad 2) (snap (ad 2) (wDel 16 0 [])).flagsAt e ∧ e.kids ≠ [] := by
  obtain ⟨e, h1, h2, h3⟩ := elDel
  refine ⟨e, h1, Classical.byContradiction fun hn => ?_, h3⟩
  have := ((C53_record_names (run_del 16 0 0 [] (by decide +kernel) (by decide +kernel)).1 (run_del 16 0 0 [] (by decide +kernel) (by decide +kernel)).2
    evDel_split h1 h2).1.2 (fun h => hn h.1)).2
  exact absurd this (by show ¬ (("device", "c") : Key) = ("site", "lax"); decide)

/-- **C52**, where it fails: the device `c` is flagged IGNORE, but it is removed along with its site, which is flagged
SKIP_CHILDREN_ON_DELETE. -/
theorem C52_removed_along : (∃ m, (snap (ad 2) (wDel 2 1 [])).find "device" "c" = some m ∧ flagOn m.flags MF.IGNORE = true) ∧
    (snap (ad 2) (sync (wDel 2 1 []) 0).2).find "device" "c" = none :=
  ⟨⟨device "c" "leaf" [] 1, by decide +kernel, by decide +kernel⟩, by decide +kernel⟩

/-- **C35**, where it fails: an empty diff that is supplied is neither checked (its class is no subclass of `diff_class`) nor used: a diff is
computed and applied. -/
theorem C35_empty_diff_ignored :
    let d : Diff String := ⟨{ DiffClass.default _ with bases := [] }, [], 0⟩
    (syncFrom 10 20 (scripted String) (ad 2) (ad 1) (DiffClass.default _) 0 (some d) (wDel 0 0 [])).1.toOption.isSome = true ∧
    calls (newEvents (wDel 0 0 []) (syncFrom 10 20 (scripted String) (ad 2) (ad 1) (DiffClass.default _) 0 (some d) (wDel 0 0 [])).2) =
      [.delete "site" "lax", .delete "device" "c"] := by decide +kernel

/-- Both adapters use Redis; the sites agree except for a missing device, and a device differs. -/
def wRedisSync : World String (List Outcome) :=
  addModels (adR 1 "one") [site "nyc" ["a", "b"], device "a" "leaf" [], device "b" "leaf" []]
    (addModels (adR 2 "two") [site "nyc" ["a"], device "a" "spine" []] (world0 String _ []))

/-- **C42**, where it fails: the sync succeeds, but the new value of the updated device and the new child list of the site are not in the store. -/
theorem C42_redis_changes_lost :
    let r := syncFrom 10 20 (scripted String) (adR 2 "two") (adR 1 "one") (DiffClass.default _) 0 none wRedisSync
    r.1.toOption.isSome = true ∧
    calls (newEvents wRedisSync r.2) = [.update "device" "a" [("role", "leaf")], .create "device" [("name", "b")] [("role", "leaf")]] ∧
    (snap (adR 2 "two") r.2).find "device" "a" = some (device "a" "spine" []) ∧
    (snap (adR 2 "two") r.2).find "site" "nyc" = some (site "nyc" ["a"]) ∧
    (snap (adR 2 "two") r.2).find "device" "b" ≠ none := by decide +kernel

/-! ## hypotheses that are met -/

theorem not_taken {A : Adapter String} {D : Snap String} {es : List (Elem String)} {evs : List (Event String)}
    (h : ∀ e ∈ nodesL es, ∀ k, keyOf? A e = some k → ¬ SkipsChildren A D k) (k : Key) : ¬ TakenAlong A D es evs k := by
  intro ht
  induction ht with
  | root he _ hk hs _ => exact h _ ((mem_nodesL_iff _ _).2 he) _ (keyOf?_iff.1 hk) hs
  | down _ _ ih => exact ih

/-- Whether any object is flagged SKIP_CHILDREN_ON_DELETE. -/
theorem not_skips (w : World String (List Outcome)) (hw : w.OK) (h : ∀ r, r < w.next → flagOn (w.heap r).m.flags MF.SKIP_CHILDREN_ON_DELETE = false) (k : Key) :
    ¬ SkipsChildren (ad 2) (snap (ad 2) w) k := by
  rintro (⟨m, h1, h2⟩ | ⟨c, h1, h2⟩)
  · simp only [snap, ad] at h1
    obtain ⟨r, hf, rfl⟩ := Option.map_eq_some_iff.1 h1
    rw [h r (hw.refs_lt _ _ _ _ hf)] at h2; cases h2
  · have := Dict.mem_of_get? h1
    simp only [ad, List.mem_cons, List.not_mem_nil, or_false, Prod.mk.injEq] at this
    rcases this with ⟨_, rfl⟩ | ⟨_, rfl⟩ | ⟨_, rfl⟩ <;> cases h2

theorem noMissing_of {evs : List (Event String)} (h : evs.all (fun ev => match ev with | .noObject _ => false | _ => true) = true) : NoMissing evs := by
  intro ctx hm
  have := List.all_eq_true.1 h _ hm
  cases this

theorem keyed1 : Keyed (ad 2) (dOf w1 0).kids := keyed_of (by decide +kernel)
theorem noMissing1 : NoMissing (newEvents w1 (sync w1 0).2) := noMissing_of (by decide +kernel)

/-- `run1` (C23-C27, C32, C33) is a sync of three levels with creates, updates and deletes that returns, makes eight calls and ends with
`sync_complete`; nothing was missing. -/
example : (sync w1 0).1.toOption.isSome = true ∧ (calls (newEvents w1 (sync w1 0).2)).length = 8 ∧
    Event.syncComplete 2 1 ∈ newEvents w1 (sync w1 0).2 ∧ progressOf (newEvents w1 (sync w1 0).2) = countUp 9 0 9 := by decide +kernel
/-- C23: objects that appear, disappear and change. -/
example : (snap (ad 2) w1).find "site" "sfo" = none ∧ (snap (ad 2) (sync w1 0).2).find "site" "sfo" ≠ none ∧
    (snap (ad 2) w1).find "site" "lax" ≠ none ∧ (snap (ad 2) (sync w1 0).2).find "site" "lax" = none ∧
    ((snap (ad 2) (sync w1 0).2).find "device" "a").map (·.vals) ≠ ((snap (ad 2) w1).find "device" "a").map (·.vals) := by decide +kernel
/-- C20, C25: calls for objects that are not top level. -/
example : CrudCall.update "device" "a" [("role", "leaf")] ∈ calls (newEvents w1 (sync w1 0).2) ∧
    CrudCall.create "interface" [("device_name", "a"), ("name", "eth0")] [("type", "ethernet"), ("desc", "up")] ∈ calls (newEvents w1 (sync w1 0).2) ∧
    CrudCall.delete "device" "c" ∈ calls (newEvents w1 (sync w1 0).2) := by decide +kernel
/-- C25, C52: source and destination use the same classes. -/
theorem sameIds_ad {w : World String (List Outcome)} (hw : w.OK)
    (h : ∀ r, r < w.next → Dict.get? (ad 0).classes (w.heap r).m.type = some (w.heap r).m.cls) : SameIds (ad 2) (snap (ad 1) w) := by
  intro t u m c hm hc
  simp only [snap, ad] at hm
  obtain ⟨r, hf, rfl⟩ := Option.map_eq_some_iff.1 hm
  have h1 := h r (hw.refs_lt _ _ _ _ hf)
  rw [(hw.key_ok _ _ _ _ hf).1] at h1
  rw [Option.some.inj (h1.symm.trans hc)]
example : SameIds (ad 2) (snap (ad 1) w1) := sameIds_ad w1_ok w1_cls
/-- C23: the source is another adapter. -/
example : Separate (ad 1) (ad 2) w1 := by
  refine ⟨by decide, ?_⟩
  intro t u t' u' r h1 h2
  have hm : ∀ (s : Nat) (t u : String) (r : Ref), findRef w1 s t u = some r → r ∈ ((w1.loc s).map (fun x => (x.2.map Prod.snd))).flatten := by
    intro s t u r h
    have := Dict.mem_of_get? h
    unfold tbl at this
    cases ht : Dict.get? (w1.loc s) t with
    | none => rw [ht] at this; cases this
    | some tbl =>
      rw [ht] at this
      exact List.mem_flatten.2 ⟨tbl.map Prod.snd, List.mem_map.2 ⟨(t, tbl), Dict.mem_of_get? ht, rfl⟩, List.mem_map.2 ⟨(u, r), this, rfl⟩⟩
  have : ∀ r ∈ ((w1.loc 1).map (fun x => (x.2.map Prod.snd))).flatten, r ∉ ((w1.loc 2).map (fun x => (x.2.map Prod.snd))).flatten := by decide +kernel
  exact this r (hm _ _ _ _ h1) (hm _ _ _ _ h2)

/-- C28: the update of the device `a` returns nothing, and there are calls prescribed below it. -/
example : ∃ x c out, InTree x (dOf (withEnv w1 os2) GF.CONTINUE_ON_FAILURE).kids ∧ Prescribes (ad 2) x c ∧
    Event.call c out ∈ newEvents (withEnv w1 os2) (sync (withEnv w1 os2) GF.CONTINUE_ON_FAILURE).2 ∧
    (out.result ≠ .object ∧ x.action ≠ some .delete ∧ x.kids.any (fun z => (prescribed? (ad 2) z).isSome) = true) := by
  obtain ⟨x, c, out, h1, h2, h3, h4⟩ := madeCall_iff (d := dOf (withEnv w1 os2) GF.CONTINUE_ON_FAILURE)
    (evs := newEvents (withEnv w1 os2) (sync (withEnv w1 os2) GF.CONTINUE_ON_FAILURE).2)
    (q := fun x out => decide (out.result ≠ .object ∧ x.action ≠ some .delete ∧ x.kids.any (fun z => (prescribed? (ad 2) z).isSome) = true)) (by decide +kernel)
  exact ⟨x, c, out, h1, h2, h3, of_decide_eq_true h4⟩
/-- C28: the deletion of the device `c` raises, and it is not removed along with anything. -/
example : (∃ out, Event.call (.delete "device" "c") out ∈ newEvents (withEnv w1 os2) (sync (withEnv w1 os2) GF.CONTINUE_ON_FAILURE).2 ∧ out.result = .raises .objectNotDeleted) ∧
    ¬ TakenAlong (ad 2) (snap (ad 2) (withEnv w1 os2)) (dOf (withEnv w1 os2) GF.CONTINUE_ON_FAILURE).kids
      (newEvents (withEnv w1 os2) (sync (withEnv w1 os2) GF.CONTINUE_ON_FAILURE).2) ("device", "c") :=
  ⟨⟨_, (by decide +kernel : Event.call (.delete "device" "c") { result := .raises .objectNotDeleted, applied := false } ∈ _), rfl⟩,
   not_taken (fun _ _ _ _ => not_skips _ (withEnv_ok w1_ok _) (by decide +kernel) _) _⟩
/-- C29, C34: without CONTINUE_ON_FAILURE the exception ends the sync. -/
example : errOf (sync (withEnv w1 os2) 0) = some .objectNotDeleted := by decide +kernel
/-- C30: with it the sync goes on and returns. -/
example : (sync (withEnv w1 os2) GF.CONTINUE_ON_FAILURE).1.toOption.isSome = true ∧
    CrudCall.delete "site" "lax" ∈ calls (newEvents w1 (sync (withEnv w1 os2) GF.CONTINUE_ON_FAILURE).2) := by decide +kernel
/-- C32: a sync of equal adapters. -/
example : (dOf wEq 0).hasDiffs = false := by decide +kernel

/-- The destination of `w1` without the site `lax`. -/
def wStale : World String (List Outcome) :=
  addModels (ad 2) [site "nyc" ["a", "c"], device "a" "spine" ["a__eth1"], device "c" "leaf" ["c__eth0"], interface "a" "eth1" "x", interface "c" "eth0" "y"]
    (world0 String _ [])
/-- C34: the diff of `w1` is applied to it. -/
theorem run_stale (flags : Nat) (d : Diff String) (hd : d = dOf w1 0) (hl : d.len ≠ 0) {res : Except Err (Diff String)} {w' : World String (List Outcome)}
    (h : syncFrom 10 20 (scripted String) (ad 2) (ad 1) (DiffClass.default _) flags (some d) wStale = (res, w')) :
    SyncRun 10 20 (scripted String) (ad 2) (ad 1) (DiffClass.default _) flags (some d) wStale d res w' :=
  ⟨(ready_ad (addModels_ok _ _ _ (world0_ok _)) 2 (by decide +kernel)).dst, .inl ⟨rfl, hl⟩, hd ▸ run1.1.good, h⟩
example : (dOf w1 0).len ≠ 0 := by decide +kernel
example : ∃ e, InTree e (dOf w1 0).kids ∧ Stale (ad 2) (snap (ad 2) wStale) e .delete := by
  have h : ((nodesL (dOf w1 0).kids).any (fun e => decide (e.action = some .delete) && decide (keyOf? (ad 2) e = some ("site", "lax")))) = true := by decide +kernel
  obtain ⟨e, he, h⟩ := List.any_eq_true.1 h
  rw [Bool.and_eq_true, decide_eq_true_eq, decide_eq_true_eq] at h
  exact ⟨e, (mem_nodesL_iff _ _).1 he, h.1, _, keyOf?_iff.2 h.2, by decide +kernel⟩
example : errOf (syncFrom 10 20 (scripted String) (ad 2) (ad 1) (DiffClass.default _) 0 (some (dOf w1 0)) wStale) = some .objectNotDeleted := by decide +kernel

/-- C50: the site `lax`, flagged NATURAL_DELETION_ORDER, is deleted after its device; C51: with SKIP_CHILDREN_ON_DELETE only the site is deleted, and the
device is gone all the same. -/
example : Flagged (snap (ad 2) (wDel 16 0 [])).flagsAt ("site", "lax") MF.NATURAL_DELETION_ORDER ∧
    calls (newEvents (wDel 16 0 []) (sync (wDel 16 0 []) 0).2) = [.delete "device" "c", .delete "site" "lax"] := ⟨⟨16, by decide +kernel, by decide⟩, by decide +kernel⟩
example := run_del 16 0 0 [] (by decide +kernel) (by decide +kernel)
example : Flagged (snap (ad 2) (wDel 2 0 [])).flagsAt ("site", "lax") MF.SKIP_CHILDREN_ON_DELETE ∧
    calls (newEvents (wDel 2 0 []) (sync (wDel 2 0 []) 0).2) = [.delete "site" "lax"] ∧
    (snap (ad 2) (sync (wDel 2 0 []) 0).2).find "device" "c" = none := ⟨⟨2, by decide +kernel, by decide⟩, by decide +kernel, by decide +kernel⟩
example := run_del 2 0 0 [] (by decide +kernel) (by decide +kernel)
/-- C52: protected objects, in a sync that deletes their site. -/
example : (calls (newEvents (wDel 0 1 []) (sync (wDel 0 1 []) 0).2) = [.delete "site" "lax"]) ∧ (snap (ad 2) (sync (wDel 0 1 []) 0).2).find "device" "c" ≠ none := by decide +kernel
example := run_del 0 1 0 [] (by decide +kernel) (by decide +kernel)
/-- C53: nothing in `w1` is flagged NATURAL_DELETION_ORDER. -/
example : NoNatural (ad 2) (snap (ad 2) w1).flagsAt (dOf w1 0).kids := by
  intro e _ _ k _ ⟨fl, h1, h2⟩
  simp only [Snap.flagsAt, snap, ad] at h1
  obtain ⟨m, h3, rfl⟩ := Option.map_eq_some_iff.1 h1
  obtain ⟨r, hf, rfl⟩ := Option.map_eq_some_iff.1 h3
  have : ∀ r, r < w1.next → flagOn (w1.heap r).m.flags MF.NATURAL_DELETION_ORDER = false := by decide +kernel
  rw [this r (w1_ok.refs_lt _ _ _ _ hf)] at h2; cases h2
end DS.Ex
