import Verif.Props.Remains
import Verif.Props.RetryEx
/-! # C78 on concrete adapters -/
set_option maxRecDepth 100000

namespace DS.Ex

/-- The update passes the new role on and then raises; the create returns `None`; the site is deleted; the delete of its device raises. -/
def osRm : List Outcome := [{ result := .raises .objectNotUpdated }, { result := .none }, {}, { result := .raises .objectNotDeleted, applied := false }]
def wRm := withEnv wRt osRm
def wRm' := (sync wRm GF.CONTINUE_ON_FAILURE).2
def flRm := GF.CONTINUE_ON_FAILURE
theorem canRm : CanConverge 10 (ad 1) (ad 2) 2 wRm := canRt _
theorem sRm : syncFrom 10 20 (scripted String) (ad 2) (ad 1) (DiffClass.default _) flRm none wRm = ((sync wRm GF.CONTINUE_ON_FAILURE).1, wRm') := by
  unfold wRm'; exact (Prod.eta _).symm

example : callsOf (newEvents wRm wRm') = [(.update "device" "a" [("role", "core")], { result := .raises .objectNotUpdated }),
    (.create "device" [("name", "b")] [("role", "leaf")], { result := .none }), (.delete "site" "lax", {}),
    (.delete "device" "x", { result := .raises .objectNotDeleted, applied := false })] := by decide +kernel

/-- The update has been done, although it raised; the site has been deleted; nothing else. -/
theorem didRm_update : Did (ad 2) (newEvents wRm wRm') .update ("device", "a") := by
  refine ⟨.update "device" "a" [("role", "core")], { result := .raises .objectNotUpdated }, ?_, rfl, rfl, .inl ⟨rfl, rfl⟩⟩
  rw [← mem_callsOf]; decide +kernel
theorem didRm_delete : Did (ad 2) (newEvents wRm wRm') .delete ("site", "lax") := by
  refine ⟨.delete "site" "lax", {}, ?_, rfl, rfl, .inr ⟨by decide, rfl⟩⟩
  rw [← mem_callsOf]; decide +kernel
theorem notRm_create (k : Key) : ¬ Did (ad 2) (newEvents wRm wRm') .create k := by
  rintro ⟨c, out, h1, h2, _, h4⟩
  have : ∀ p ∈ callsOf (newEvents wRm wRm'), p.1.act = .create → p.2.result ≠ .object := by decide +kernel
  rcases h4 with ⟨h4, _⟩ | ⟨_, h4⟩
  · rw [h2] at h4; cases h4
  · exact this (c, out) (mem_callsOf.2 h1) h2 h4

/-- Neither device `a` nor site `lax` nor device `x` below it is found by the next comparison, device `b` is. -/
example (f a : String) : ¬ ToUpdate (ad 1) (ad 2) flRm (snap (ad 1) wRm') (snap (ad 2) wRm') ("device", "a") f a := fun h =>
  ((C78_left_to_update canRm (self1 _) (keep_ad 2 _) (steady_ad 2) reorders_default (by decide) sRm _ f a).1 h).2 didRm_update
example : ¬ ToDelete (ad 1) (ad 2) flRm (snap (ad 1) wRm') (snap (ad 2) wRm') ("site", "lax") := fun h =>
  ((C78_left_to_delete canRm (steady_ad 2) reorders_default (by decide) sRm _).1 h).2.1 didRm_delete
example : ¬ ToDelete (ad 1) (ad 2) flRm (snap (ad 1) wRm') (snap (ad 2) wRm') ("device", "x") := fun h =>
  ((C78_left_to_delete canRm (steady_ad 2) reorders_default (by decide) sRm _).1 h).2.2 ("site", "lax") (.child (by decide +kernel)) didRm_delete
theorem visRm (k : Key) : ¬ Hidden flRm ((snap (ad 1) wRm).find k.1 k.2) ((snap (ad 2) wRm).find k.1 k.2) := by
  have : ∀ x ∈ objs 1 wRm ++ objs 2 wRm, x.2.flags = 0 := by decide +kernel
  intro hh
  have h : ∀ m, (snap (ad 1) wRm).find k.1 k.2 = some m ∨ (snap (ad 2) wRm).find k.1 k.2 = some m → m.flags = 0 := fun m hm => this _ (mem_objs' hm)
  revert hh h
  generalize (snap (ad 1) wRm).find k.1 k.2 = o
  generalize (snap (ad 2) wRm).find k.1 k.2 = o'
  intro hh h
  cases hh with
  | globalSrc _ hf | globalDst _ hf => exact absurd hf (by decide)
  | modelSrc _ hf | modelDst _ hf | ignoreSrc _ _ hf | ignoreDst _ _ hf =>
    rw [h _ (by simp)] at hf
    exact absurd hf (by decide)
theorem createRm : ToCreate (ad 1) (ad 2) flRm (snap (ad 1) wRm) (snap (ad 2) wRm) ("device", "b") := by
  refine ⟨(shown_iff_reached canRm.reconcilable canRm.ready.instOf).2
    (.child (p := ("site", "nyc")) (.top (by decide) (by decide) (.inl (by decide +kernel)) (visRm _)) (.inl (by decide +kernel)) ⟨fun m hm => ?_, fun m hm => ?_⟩ (visRm _)),
    by decide +kernel, by decide +kernel⟩
  all_goals
    have : ∀ x ∈ objs 1 wRm ++ objs 2 wRm, x.1.1 = "site" → "device" ∈ Dict.keys x.2.cls.children := by decide +kernel
  · exact this _ (List.mem_append_left _ (mem_objs (k := ("site", "nyc")) hm)) rfl
  · exact this _ (List.mem_append_right _ (mem_objs (k := ("site", "nyc")) hm)) rfl
example : ToCreate (ad 1) (ad 2) flRm (snap (ad 1) wRm') (snap (ad 2) wRm') ("device", "b") :=
  (C78_left_to_create canRm (steady_ad 2) reorders_default (by decide) sRm _).2 ⟨createRm, notRm_create _⟩

/-- The diffs before and after: four actions, and one. -/
def dRm := dOf wRm flRm
def dRm' := dOf wRm' flRm
example : dRm.summary = { create := 1, update := 1, delete := 2, noChange := 1 } ∧ dRm'.summary.create = 1 ∧ dRm'.summary.update = 0 ∧ dRm'.summary.delete = 0 := by decide +kernel
example := C78_left_after_any_tries canRm (self1 _) (keep_ad 2 _) (steady_ad 2) (by decide) (.sync .nil reorders_default sRm)

end DS.Ex
