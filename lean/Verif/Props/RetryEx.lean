import Verif.Props.Retry
import Verif.Props.OutcomeEx
/-! # C71 on concrete adapters -/
set_option maxRecDepth 100000

namespace DS.Ex

theorem steady_ad (s : Nat) : Steady (ad s) where
  made t c h := by
    have hm : (t, c) ∈ (ad 0).classes := Dict.mem_of_get? h
    revert hm
    have : ∀ x ∈ (ad 0).classes, flagOn x.2.defaultFlags MF.IGNORE = false := by decide
    exact this (t, c)

/-- The source lacks `lax` and its device `x`, has another role for `a` and a further device. -/
def wRt : World String (List Outcome) :=
  addModels (ad 1) [site "nyc" ["a", "b"], device "a" "core" [], device "b" "leaf" []]
  (addModels (ad 2) [site "nyc" ["a"], device "a" "leaf" [], site "lax" ["x"], device "x" "leaf" []] (world0 String _ []))
theorem wRt_ok : wRt.OK := addModels_ok _ _ _ (addModels_ok _ _ _ (world0_ok _))
theorem canRt (os : List Outcome) : CanConverge 10 (ad 1) (ad 2) 2 (withEnv wRt os) :=
  canConverge_env os wRt_ok (by decide +kernel) (by decide +kernel) (by constructor <;> decide +kernel)

/-- User code that always succeeds. -/
def willing : Hooks String (List Outcome) := fun e _ => ({}, e)
def syncW (w : World String (List Outcome)) (flags : Nat) := syncFrom 10 20 willing (ad 2) (ad 1) (DiffClass.default _) flags none w

/-- A first attempt whose third call raises (before anything has been deleted), and one whose fourth call raises: the site is gone, its device is
not. -/
def osRt : List Outcome := [{}, {}, { result := .raises .objectNotDeleted, applied := false }]
def osRt' : List Outcome := [{}, {}, {}, { result := .raises .objectNotDeleted, applied := false }]
def wRta := withEnv wRt osRt
def wRta1 := (sync wRta 0).2
def wRta' := (sync wRta1 0).2
def wRta0 := (syncW wRta 0).2
def wRtb := withEnv wRt osRt'
def wRtb1 := (sync wRtb 0).2
def wRtb' := (sync wRtb1 0).2
def wRtb0 := (syncW wRtb 0).2
theorem canRta : CanConverge 10 (ad 1) (ad 2) 2 wRta := canRt _
theorem canRtb : CanConverge 10 (ad 1) (ad 2) 2 wRtb := canRt _
theorem attRta : Attempts 10 20 (ad 1) (ad 2) 0 wRta wRta1 := .sync .nil (hooks := scripted String) (dc := .default _) (res := (sync wRta 0).1) (by unfold wRta1; exact (Prod.eta _).symm)
theorem attRtb : Attempts 10 20 (ad 1) (ad 2) 0 wRtb wRtb1 := .sync .nil (hooks := scripted String) (dc := .default _) (res := (sync wRtb 0).1) (by unfold wRtb1; exact (Prod.eta _).symm)
theorem sRta : syncFrom 10 20 (scripted String) (ad 2) (ad 1) (DiffClass.default _) 0 none wRta1 = ((sync wRta1 0).1, wRta') := by unfold wRta'; exact (Prod.eta _).symm
theorem sRtb : syncFrom 10 20 (scripted String) (ad 2) (ad 1) (DiffClass.default _) 0 none wRtb1 = ((sync wRtb1 0).1, wRtb') := by unfold wRtb'; exact (Prod.eta _).symm
theorem sRta0 : syncFrom 10 20 willing (ad 2) (ad 1) (DiffClass.default _) 0 none wRta = ((syncW wRta 0).1, wRta0) := by unfold wRta0; exact (Prod.eta _).symm
theorem sRtb0 : syncFrom 10 20 willing (ad 2) (ad 1) (DiffClass.default _) 0 none wRtb = ((syncW wRtb 0).1, wRtb0) := by unfold wRtb0; exact (Prod.eta _).symm
theorem allRta : AllSucceed (newEvents wRta1 wRta') := allSucceed_of (by decide +kernel)
theorem allRtb : AllSucceed (newEvents wRtb1 wRtb') := allSucceed_of (by decide +kernel)
theorem allRta0 : AllSucceed (newEvents wRta wRta0) := allSucceed_of (by decide +kernel)
theorem allRtb0 : AllSucceed (newEvents wRtb wRtb0) := allSucceed_of (by decide +kernel)

/-- C71 applies to both. -/
example := C71_retries canRta (keep_ad 2 _) (by decide) (steady_ad 2) attRta reorders_default sRta allRta reorders_default (by decide) sRta0 allRta0
example := C71_retries canRtb (keep_ad 2 _) (by decide) (steady_ad 2) attRtb reorders_default sRtb allRtb reorders_default (by decide) sRtb0 allRtb0
theorem visible_of {o o' : Option (Model String)} (h : ∀ m, o = some m ∨ o' = some m → m.flags = 0) : ¬ Hidden 0 o o' := by
  intro hh
  cases hh with
  | globalSrc _ hf | globalDst _ hf => exact absurd hf (by decide)
  | modelSrc _ hf | modelDst _ hf | ignoreSrc _ _ hf | ignoreDst _ _ hf =>
    rw [h _ (by simp)] at hf
    exact absurd hf (by decide)
theorem visRtb (k : Key) : ¬ Hidden 0 ((snap (ad 1) wRtb).find k.1 k.2) ((snap (ad 2) wRtb).find k.1 k.2) := by
  have : ∀ x ∈ objs 1 wRtb ++ objs 2 wRtb, x.2.flags = 0 := by decide +kernel
  exact visible_of (fun m hm => this _ (mem_objs' hm))
/-- Device `b`, which an earlier attempt has created, takes part. -/
theorem shownRtb : Shown (ad 1) (ad 2) 0 (snap (ad 1) wRtb) (snap (ad 2) wRtb) ("device", "b") := by
  refine (shown_iff_reached canRtb.reconcilable canRtb.ready.instOf).2
    (.child (p := ("site", "nyc")) (.top (by decide) (by decide) (.inl (by decide +kernel)) (visRtb _)) (.inl (by decide +kernel)) ⟨fun m hm => ?_, fun m hm => ?_⟩ (visRtb _))
  all_goals
    have : ∀ x ∈ objs 1 wRtb ++ objs 2 wRtb, x.1.1 = "site" → "device" ∈ Dict.keys x.2.cls.children := by decide +kernel
  · exact this _ (List.mem_append_left _ (mem_objs (k := ("site", "nyc")) hm)) rfl
  · exact this _ (List.mem_append_right _ (mem_objs (k := ("site", "nyc")) hm)) rfl
example : ∃ s m, (snap (ad 1) wRtb).find "device" "b" = some s ∧ (snap (ad 2) wRtb').find "device" "b" = some m ∧ ∀ f a, ¬ Differs s m f a := by
  obtain ⟨s, hs⟩ := Option.ne_none_iff_exists'.1 (show (snap (ad 1) wRtb).find "device" "b" ≠ none by decide +kernel)
  obtain ⟨m, h1, h2⟩ := C71_source_arrives canRtb (self1 _) (keep_ad 2 _) (by decide) (steady_ad 2) attRtb reorders_default sRtb allRtb shownRtb hs
  exact ⟨s, m, hs, h1, h2⟩
/-- The first attempts end with an exception, after two calls that did their work and one that did not; and after three and one. -/
example : errOf (sync wRta 0) = some .objectNotDeleted ∧ (calls (newEvents wRta wRta1)).length = 3 ∧ (calls (newEvents wRta1 wRta')).length = 2 ∧
    errOf (sync wRtb 0) = some .objectNotDeleted ∧ (calls (newEvents wRtb wRtb1)).length = 4 ∧ (calls (newEvents wRtb1 wRtb')).length = 0 := by decide +kernel
/-- Nothing is left over by the first; the second leaves device `x`, which a sync that succeeds at once deletes. -/
example : (objs 2 wRta').map Prod.fst = (objs 2 wRta0).map Prod.fst ∧ ("device", "x") ∉ (objs 2 wRta').map Prod.fst := by decide +kernel
example : ("device", "x") ∈ (objs 2 wRtb').map Prod.fst ∧ ("device", "x") ∉ (objs 2 wRtb0).map Prod.fst := by decide +kernel

/-- With a source that lacks only objects without children nothing can be left over. -/
def wRu : World String (List Outcome) :=
  addModels (ad 1) [site "nyc" ["a", "b"], device "a" "core" [], device "b" "leaf" []]
  (addModels (ad 2) [site "nyc" ["a", "x"], device "a" "leaf" [], device "x" "leaf" []] (world0 String _ osRt))
theorem wRu_ok : wRu.OK := addModels_ok _ _ _ (addModels_ok _ _ _ (world0_ok _))
theorem canRu : CanConverge 10 (ad 1) (ad 2) 2 wRu := canConverge_of (by decide) wRu_ok (by decide +kernel) (by decide +kernel) (by constructor <;> decide +kernel)
def wRu1 := (sync wRu 0).2
def wRu' := (sync wRu1 0).2
def wRu0 := (syncW wRu 0).2
theorem attRu : Attempts 10 20 (ad 1) (ad 2) 0 wRu wRu1 := .sync .nil (hooks := scripted String) (dc := .default _) (res := (sync wRu 0).1) (by unfold wRu1; exact (Prod.eta _).symm)
theorem sRu : syncFrom 10 20 (scripted String) (ad 2) (ad 1) (DiffClass.default _) 0 none wRu1 = ((sync wRu1 0).1, wRu') := by unfold wRu'; exact (Prod.eta _).symm
theorem sRu0 : syncFrom 10 20 willing (ad 2) (ad 1) (DiffClass.default _) 0 none wRu = ((syncW wRu 0).1, wRu0) := by unfold wRu0; exact (Prod.eta _).symm
theorem leavesRu : ∀ k c : Key, listsO ((snap (ad 2) wRu).find k.1 k.2) c.1 c.2 = true → (snap (ad 1) wRu).find k.1 k.2 ≠ none := by
  intro k c h
  have : ∀ x ∈ links 2 wRu, (snap (ad 1) wRu).find x.1.1 x.1.2 ≠ none := by decide +kernel
  exact this _ (mem_links h)
example : SameContents (snap (ad 2) wRu0) (snap (ad 2) wRu') :=
  C71_retries_same canRu (keep_ad 2 _) (by decide) (steady_ad 2) (.inr leavesRu) attRu reorders_default sRu (allSucceed_of (by decide +kernel)) reorders_default
    (by decide) sRu0 (allSucceed_of (by decide +kernel))
example : errOf (sync wRu 0) = some .objectNotDeleted ∧ (calls (newEvents wRu1 wRu')).length = 1 := by decide +kernel

end DS.Ex
