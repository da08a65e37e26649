import Verif.Props.Chain
import Verif.Props.ConvergeEx
/-! # C68 on concrete adapters -/
set_option maxRecDepth 100000

namespace DS.Ex

/-- `Snap.Unflagged`, computed. -/
theorem unflagged_of {s : Nat} {w : World String (List Outcome)} (h : ∀ x ∈ objs s w, flagOn x.2.flags MF.IGNORE = false ∧
    flagOn x.2.flags MF.SKIP_UNMATCHED_SRC = false ∧ flagOn x.2.flags MF.SKIP_UNMATCHED_DST = false) : (snap (ad s) w).Unflagged :=
  fun t u _ hm => h _ (mem_objs (k := (t, u)) hm)

/-- `Between`, computed. -/
theorem between_of {i j k : Nat} {wi wj wk : World String (List Outcome)}
    (h : ∀ x ∈ objs i wi, ∀ y ∈ objs j wj, x.1 = y.1 → (∀ a ∈ Dict.keys x.2.attrs, a ∈ Dict.keys y.2.attrs) ∧
      ∀ ct ∈ Dict.keys x.2.cls.children, ct ∈ Dict.keys y.2.cls.children) :
    Between (ad i) (ad j) (ad k) (snap (ad i) wi) (snap (ad j) wj) (snap (ad k) wk) where
  top _ h _ := h
  attrs t u _ _ _ _ h1 h2 _ h4 _ := (h _ (mem_objs (k := (t, u)) h1) _ (mem_objs (k := (t, u)) h2) rfl).1 _ h4
  kids t u _ _ _ _ h1 h2 _ h4 _ := (h _ (mem_objs (k := (t, u)) h1) _ (mem_objs (k := (t, u)) h2) rfl).2 _ h4

/-- The adapters of `w1` and a third one. -/
def wC : World String (List Outcome) :=
  addModels (ad 3) [site "nyc" ["d", "a"], device "d" "leaf" ["d__eth0"], device "a" "core" [], interface "d" "eth0" "up", site "rio" []] w1
theorem wC_ok : wC.OK := addModels_ok _ _ _ w1_ok
/-- The second adapter synced from the first. -/
def wC1 := (syncFrom 10 20 (scripted String) (ad 2) (ad 1) (DiffClass.default _) 0 none wC).2
/-- Then the third from the second. -/
def wC2 := (syncFrom 10 20 (scripted String) (ad 3) (ad 2) (DiffClass.default _) 0 none wC1).2

theorem canC : CanConverge 10 (ad 1) (ad 2) 2 wC :=
  canConverge_of (by decide) wC_ok (by decide +kernel) (by decide +kernel) (by constructor <;> decide +kernel)
theorem wC1_ok : wC1.OK := (canC.again (rl := 20) (by decide) (Prod.eta _).symm).ready.ok
theorem canC1 : CanConverge 10 (ad 2) (ad 3) 3 wC1 :=
  canConverge_of (by decide) wC1_ok (by decide +kernel) (by decide +kernel) (by constructor <;> decide +kernel)

theorem syncC : syncFrom 10 20 (scripted String) (ad 2) (ad 1) (DiffClass.default _) 0 none wC =
    ((syncFrom 10 20 (scripted String) (ad 2) (ad 1) (DiffClass.default _) 0 none wC).1, wC1) := (Prod.eta _).symm
theorem syncC1 : syncFrom 10 20 (scripted String) (ad 3) (ad 2) (DiffClass.default _) 0 none wC1 =
    ((syncFrom 10 20 (scripted String) (ad 3) (ad 2) (DiffClass.default _) 0 none wC1).1, wC2) := (Prod.eta _).symm
theorem allC : AllSucceed (newEvents wC wC1) := allSucceed_of (by decide +kernel)
theorem allC1 : AllSucceed (newEvents wC1 wC2) := allSucceed_of (by decide +kernel)
theorem sepC1 : Separate (ad 1) (ad 3) wC1 := separate_of (by decide) (by decide +kernel)
theorem betweenC : Between (ad 1) (ad 2) (ad 3) (snap (ad 1) wC) (snap (ad 2) wC1) (snap (ad 3) wC2) := between_of (by decide +kernel)
theorem unflC : (snap (ad 1) wC).Unflagged := unflagged_of (by decide +kernel)
theorem unflC1 : (snap (ad 2) wC1).Unflagged := unflagged_of (by decide +kernel)
theorem unflC2 : (snap (ad 3) wC2).Unflagged := unflagged_of (by decide +kernel)

/-- C68: the theorem on chained syncs applies, and both syncs have work to do. -/
example := C68_syncs_chain canC canC1 sepC1 (self1 _) (self1 _) (keep_ad 2 _).new (keep_ad 3 _).new reorders_default reorders_default (by decide) syncC allC syncC1 allC1
  betweenC ⟨by decide, by decide⟩ unflC unflC1 unflC2
example : (calls (newEvents wC wC1)).length = 8 ∧ (calls (newEvents wC1 wC2)).length = 7 := by decide +kernel

/-- Three adapters with the same sites and devices, listed in different orders. -/
def wT : World String (List Outcome) :=
  addModels (ad 1) [site "nyc" ["a", "b"], device "a" "leaf" [], device "b" "spine" [], site "sfo" []]
  (addModels (ad 2) [site "sfo" [], site "nyc" ["b", "a"], device "b" "spine" [], device "a" "leaf" []]
  (addModels (ad 3) [device "b" "spine" [], site "nyc" ["a", "b"], site "sfo" [], device "a" "leaf" []] (world0 String _ [])))
theorem wT_ok : wT.OK := addModels_ok _ _ _ (addModels_ok _ _ _ (addModels_ok _ _ _ (world0_ok _)))
theorem wT_comparable (i j : Nat) : Comparable (ad i) (ad j) wT :=
  comparable_local wT_ok rfl rfl (by decide +kernel) (by decide +kernel) (by decide : (ad 0).topLevel.Nodup)
theorem diff_ok {w : World String (List Outcome)} {i j : Nat} (h : (diffFrom 10 (ad j) (ad i) (DiffClass.default _) 0 w).1.toOption.isSome = true) :
    ∃ d, diffFrom 10 (ad j) (ad i) (DiffClass.default _) 0 w = (.ok d, (diffFrom 10 (ad j) (ad i) (DiffClass.default _) 0 w).2) := by
  generalize diffFrom 10 (ad j) (ad i) (DiffClass.default _) 0 w = r at h
  obtain ⟨_ | d, w'⟩ := r
  · cases h
  · exact ⟨d, rfl⟩
/-- Whether a diff that returned has changes. -/
def diffs (w : World String (List Outcome)) (i j : Nat) : Option Bool :=
  (diffFrom 10 (ad j) (ad i) (DiffClass.default _) 0 w).1.toOption.map Diff.hasDiffs
/-- C68: the theorem on three adapters applies. -/
example : diffs wT 1 3 = some false := by
  obtain ⟨d1, h1⟩ := diff_ok (w := wT) (i := 1) (j := 2) (by decide +kernel)
  obtain ⟨d2, h2⟩ := diff_ok (w := wT) (i := 2) (j := 3) (by decide +kernel)
  obtain ⟨d3, h3⟩ := diff_ok (w := wT) (i := 1) (j := 3) (by decide +kernel)
  have n1 : diffs wT 1 2 = some false := by decide +kernel
  have n2 : diffs wT 2 3 = some false := by decide +kernel
  unfold diffs at n1 n2 ⊢
  rw [h1] at n1; rw [h2] at n2; rw [h3]
  exact congrArg some (C68_no_diffs_transitive (wT_comparable 1 2) (wT_comparable 2 3) (wT_comparable 1 3) (between_of (by decide +kernel)) ⟨by decide, by decide⟩
    (unflagged_of (by decide +kernel)) (unflagged_of (by decide +kernel)) (unflagged_of (by decide +kernel)) h1 h2 h3 (Option.some.inj n1) (Option.some.inj n2))

/-- Without `Unflagged` it fails: the second adapter's extra site asks to be passed over where it is unmatched, so it makes no difference
to the first adapter, and the third adapter has it. -/
def wFl : World String (List Outcome) :=
  addModels (ad 1) [site "nyc" []]
  (addModels (ad 2) [site "nyc" [], { site "sfo" [] with flags := MF.SKIP_UNMATCHED_DST }]
  (addModels (ad 3) [site "nyc" [], site "sfo" []] (world0 String _ [])))
example : diffs wFl 1 2 = some false ∧ diffs wFl 2 3 = some false ∧ diffs wFl 1 3 = some true := by decide +kernel

/-- Nor may the flags leave out what is unmatched: with SKIP_UNMATCHED_BOTH the empty second adapter has no diffs to either of two
adapters that hold the same device with different roles. -/
def wFg : World String (List Outcome) :=
  addModels (ad 1) [site "nyc" ["a"], device "a" "leaf" []]
  (addModels (ad 3) [site "nyc" ["a"], device "a" "spine" []] (world0 String _ []))
def diffsSkip (w : World String (List Outcome)) (i j : Nat) : Option Bool :=
  (diffFrom 10 (ad j) (ad i) (DiffClass.default _) (GF.SKIP_UNMATCHED_SRC + GF.SKIP_UNMATCHED_DST) w).1.toOption.map Diff.hasDiffs
example : diffsSkip wFg 1 2 = some false ∧ diffsSkip wFg 2 3 = some false ∧ diffsSkip wFg 1 3 = some true := by decide +kernel

end DS.Ex
