import Verif.Props.Unchanged
import Verif.Props.SyncEx
/-! # Records of unchanged objects: concrete cases -/

namespace DS.Ex

/-- The site and the interface are the same on both sides, the device between them is to be updated; there is another device that is the same. -/
def wUn : World String (List Outcome) :=
  addModels (ad 1) [site "nyc" ["a", "b"], device "a" "leaf" ["a__eth0"], device "b" "spine" [], interface "a" "eth0" "up"]
  (addModels (ad 2) [site "nyc" ["a", "b"], device "a" "spine" ["a__eth0"], device "b" "spine" [], interface "a" "eth0" "up"]
  (world0 String _ []))
theorem wUn_ok : wUn.OK := addModels_ok _ _ _ (addModels_ok _ _ _ (world0_ok _))
theorem wUn_cls : ∀ r, r < wUn.next → Dict.get? (ad 0).classes (wUn.heap r).m.type = some (wUn.heap r).m.cls := by decide +kernel

/-- All calls succeed. -/
theorem run_un : SyncRun 10 20 (scripted String) (ad 2) (ad 1) (DiffClass.default _) GF.LOG_UNCHANGED_RECORDS none wUn (dOf wUn GF.LOG_UNCHANGED_RECORDS)
    (sync wUn GF.LOG_UNCHANGED_RECORDS).1 (sync wUn GF.LOG_UNCHANGED_RECORDS).2 ∧ Tidy (ad 2) (dOf wUn GF.LOG_UNCHANGED_RECORDS) :=
  run_ex wUn_ok GF.LOG_UNCHANGED_RECORDS wUn_cls (by decide +kernel) (by decide +kernel)
/-- The update of the device returns nothing. -/
def osUn : List Outcome := [{ result := .none }]
theorem run_un_none : SyncRun 10 20 (scripted String) (ad 2) (ad 1) (DiffClass.default _) GF.LOG_UNCHANGED_RECORDS none (withEnv wUn osUn)
    (dOf (withEnv wUn osUn) GF.LOG_UNCHANGED_RECORDS) (sync (withEnv wUn osUn) GF.LOG_UNCHANGED_RECORDS).1 (sync (withEnv wUn osUn) GF.LOG_UNCHANGED_RECORDS).2 ∧
    Tidy (ad 2) (dOf (withEnv wUn osUn) GF.LOG_UNCHANGED_RECORDS) :=
  run_ex (withEnv_ok wUn_ok osUn) GF.LOG_UNCHANGED_RECORDS (withEnv_cls osUn wUn_cls) (by decide +kernel) (by decide +kernel)

/-- C99: the hypotheses of `C99_exactly_the_unchanged` hold of the first sync, which returns and leaves no element without an object. -/
theorem un_ok : ∃ d', (sync wUn GF.LOG_UNCHANGED_RECORDS).1 = .ok d' := by
  have h : (sync wUn GF.LOG_UNCHANGED_RECORDS).1.toOption.isSome = true := by decide +kernel
  cases hs : (sync wUn GF.LOG_UNCHANGED_RECORDS).1 with
  | ok d' => exact ⟨d', rfl⟩
  | error x => rw [hs] at h; cases h
theorem un_full : NoMissing (newEvents wUn (sync wUn GF.LOG_UNCHANGED_RECORDS).2) := noMissing_of (by decide +kernel)
example : (unchangedOf (newEvents wUn (sync wUn GF.LOG_UNCHANGED_RECORDS).2)).length = (dOf wUn GF.LOG_UNCHANGED_RECORDS).summary.noChange := by
  obtain ⟨d', hd'⟩ := un_ok
  have h := run_un.1
  rw [hd'] at h
  exact (C99_exactly_the_unchanged h run_un.2.1 (by decide) un_full).2
/-- The records there are: also below the device that is updated. -/
example : unchangedOf (newEvents wUn (sync wUn GF.LOG_UNCHANGED_RECORDS).2) =
    [(⟨none, "site", "nyc"⟩, .success), (⟨none, "interface", "a__eth0"⟩, .success), (⟨none, "device", "b"⟩, .success)] := by decide +kernel
/-- No records without the flag. -/
example : unchangedOf (newEvents wUn (sync wUn 0).2) = [] := by decide +kernel

/-- **C99** That there is a record for every element without action needs that the elements above it have objects: when the update of the device returns
nothing, its interface, which is the same on both sides, has no record, though the sync returns. -/
theorem C99_hidden_below_failure :
    unchangedOf (newEvents (withEnv wUn osUn) (sync (withEnv wUn osUn) GF.LOG_UNCHANGED_RECORDS).2) =
      [(⟨none, "site", "nyc"⟩, .success), (⟨none, "device", "b"⟩, .success)] ∧
    (dOf (withEnv wUn osUn) GF.LOG_UNCHANGED_RECORDS).summary.noChange = 3 ∧
    (sync (withEnv wUn osUn) GF.LOG_UNCHANGED_RECORDS).1.toOption.isSome = true := by decide +kernel
end DS.Ex
