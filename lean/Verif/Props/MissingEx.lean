import Verif.Props.Missing
import Verif.Props.UnchangedEx
/-! # Warnings that no object resulted: concrete cases -/

namespace DS.Ex

/-- What the warnings name. -/
def missedOf (evs : List (Event String)) : List LogCtx := evs.filterMap (fun ev => match ev with | .noObject c => some c | _ => none)

/-- The destination of `wUn` has lost the device `b` since the diff was computed. -/
def wGone : World String (List Outcome) :=
  addModels (ad 2) [site "nyc" ["a", "b"], device "a" "spine" ["a__eth0"], interface "a" "eth0" "up"] (world0 String _ [])
def syncGone := syncFrom 10 20 (scripted String) (ad 2) (ad 1) (DiffClass.default _) 0 (some (dOf wUn GF.LOG_UNCHANGED_RECORDS)) wGone
theorem run_gone_of (d : Diff String) (hd : d = dOf wUn GF.LOG_UNCHANGED_RECORDS) (hl : d.len ≠ 0) {res : Except Err (Diff String)}
    {w' : World String (List Outcome)} (h : syncFrom 10 20 (scripted String) (ad 2) (ad 1) (DiffClass.default _) 0 (some d) wGone = (res, w')) :
    SyncRun 10 20 (scripted String) (ad 2) (ad 1) (DiffClass.default _) 0 (some d) wGone d res w' :=
  ⟨(ready_ad (addModels_ok _ _ _ (world0_ok _)) 2 (by decide +kernel)).dst, .inl ⟨rfl, hl⟩, hd ▸ run_un.1.good, h⟩
theorem run_gone : SyncRun 10 20 (scripted String) (ad 2) (ad 1) (DiffClass.default _) 0 (some (dOf wUn GF.LOG_UNCHANGED_RECORDS)) wGone
    (dOf wUn GF.LOG_UNCHANGED_RECORDS) syncGone.1 syncGone.2 :=
  run_gone_of _ rfl (by decide +kernel) (by rw [syncGone])

/-- C100: the hypotheses hold of this sync, which warns of the device that is to be left as it is and is not there. -/
example {L R : List (Event String)} {ctx : LogCtx} (h : newEvents wGone syncGone.2 = L ++ .noObject ctx :: R) := C100_warning_has_cause run_gone run_un.2 h
example : missedOf (newEvents wGone syncGone.2) = [⟨none, "device", "b"⟩] ∧ (snap (ad 2) wGone).find "device" "b" = none := by decide +kernel
/-- The hypotheses of `C100_absent_is_warned`: the sync returns, and the device has an element without action. -/
example : syncGone.1.toOption.isSome = true := by decide +kernel
example : ∃ e, InTree e (dOf wUn GF.LOG_UNCHANGED_RECORDS).kids ∧ e.action = none ∧ ElemKey (ad 2) e ("device", "b") := by
  have h : ((nodesL (dOf wUn GF.LOG_UNCHANGED_RECORDS).kids).any (fun e => decide (e.action = none) && decide (keyOf? (ad 2) e = some ("device", "b")))) = true := by
    decide +kernel
  obtain ⟨e, he, h⟩ := List.any_eq_true.1 h
  rw [Bool.and_eq_true, decide_eq_true_eq, decide_eq_true_eq] at h
  exact ⟨e, (mem_nodesL_iff _ _).1 he, h.1, keyOf?_iff.2 h.2⟩
/-- The warning after an update that returned nothing; it names what is updated. -/
example {L R : List (Event String)} {ctx : LogCtx} (h : newEvents (withEnv wUn osUn) (sync (withEnv wUn osUn) GF.LOG_UNCHANGED_RECORDS).2 = L ++ .noObject ctx :: R) :=
  C100_warning_has_cause run_un_none.1 run_un_none.2 h
example : missedOf (newEvents (withEnv wUn osUn) (sync (withEnv wUn osUn) GF.LOG_UNCHANGED_RECORDS).2) = [⟨some .update, "device", "a"⟩] := by decide +kernel
/-- The first call returns nothing and the third raises: with CONTINUE_ON_FAILURE there is a warning for each, without it the second failure ends the
sync. -/
example {L R : List (Event String)} {c : CrudCall String} {out : Outcome}
    (h : newEvents (withEnv w1 os2) (sync (withEnv w1 os2) GF.CONTINUE_ON_FAILURE).2 = L ++ .call c out :: R) (ho : out.result ≠ .object) :=
  C100_failure_is_warned (run2 _ (.inr rfl)).1 h ho
example : missedOf (newEvents (withEnv w1 os2) (sync (withEnv w1 os2) GF.CONTINUE_ON_FAILURE).2) =
    [⟨some .update, "device", "a"⟩, ⟨some .delete, "device", "c"⟩] := by decide +kernel
example : missedOf (newEvents (withEnv w1 os2) (sync (withEnv w1 os2) 0).2) = [⟨some .update, "device", "a"⟩] := by decide +kernel
end DS.Ex
