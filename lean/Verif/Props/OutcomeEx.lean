import Verif.Props.Outcome
import Verif.Props.SameContentsEx
/-! # C70 on concrete adapters -/
set_option maxRecDepth 100000

namespace DS.Ex

/-- `Snap.NoneGoesAlong`, computed, when no object asks to be passed over. -/
theorem noneGoesAlong_of {s : Nat} {w : World String (List Outcome)}
    (h : ∀ x ∈ objs s w, flagOn x.2.flags MF.IGNORE = false ∧ flagOn x.2.flags MF.SKIP_UNMATCHED_DST = false) : (snap (ad s) w).NoneGoesAlong (ad s) :=
  fun _ k _ _ _ hm => h _ (mem_objs (k := k) hm)

/-- C70 applies to the sync of `wC`, which creates, updates and deletes. -/
example := C70_outcome canC reorders_default (by decide) syncC allC
example := C70_outcome_to canC reorders_default (by decide) (show syncTo 10 20 (scripted String) (ad 1) (ad 2) (DiffClass.default _) 0 none wC = _ from syncC) allC
example := @C70_rest_untouched _ _ _ _ _ _ _ _ _ _ _ _ _ _ canC reorders_default (by decide : 10 ≤ 20) syncC allC (noneGoesAlong_of (by decide +kernel))

theorem wSb_ok : wSb.OK := (loaded wSa_ok new_b).2.1
theorem canSb : CanConverge 10 (ad 1) (ad 2) 2 wSb :=
  canConverge_of (by decide) wSb_ok (by decide +kernel) (by decide +kernel) (by constructor <;> decide +kernel)

/-- The objects of `wS` loaded into other local stores, in other orders. -/
def wSe := (loadAll (ad 3) [6, 4, 3, 5] wS).2
def wSf := (loadAll (ad 4) [2, 0, 1] wSe).2
theorem new_e : NewTo (ad 3) [6, 4, 3, 5] wS := newTo_of (fun _ => plain_ad) (by decide +kernel) (by decide +kernel) (by decide +kernel) (by decide +kernel)
theorem wSe_ok : wSe.OK := (loaded wS_ok new_e).2.1
theorem new_f : NewTo (ad 4) [2, 0, 1] wSe := newTo_of (fun _ => plain_ad) (by decide +kernel) (by decide +kernel) (by decide +kernel) (by decide +kernel)
theorem wSf_ok : wSf.OK := (loaded wSe_ok new_f).2.1
theorem load_e : loadAll (ad 3) [6, 4, 3, 5] wS = (.ok (), wSe) := by unfold wSe; exact (loaded wS_ok new_e).1
theorem load_f : loadAll (ad 4) [2, 0, 1] wSe = (.ok (), wSf) := by unfold wSf; exact (loaded wSe_ok new_f).1
theorem keep_e (t u : String) : (snap (ad 4) wSe).find t u = (snap (ad 4) wS).find t u := by
  unfold wSe; exact (loaded wS_ok new_e).2.2 (ad 4) (by decide) (fun _ => plain_ad) t u
theorem keep_f (t u : String) : (snap (ad 3) wSf).find t u = (snap (ad 3) wSe).find t u := by
  unfold wSf; exact (loaded wSe_ok new_f).2.2 (ad 3) (by decide) (fun _ => plain_ad) t u
theorem canSf : CanConverge 10 (ad 3) (ad 4) 4 wSf :=
  canConverge_of (by decide) wSf_ok (by decide +kernel) (by decide +kernel) (by constructor <;> decide +kernel)
theorem same_src' : SameContents (snap (ad 1) wSb) (snap (ad 3) wSf) := by
  have h := C69_load_order wS_ok wS_ok new_a new_e
    (fun t u => by rw [empty_find (by decide +kernel), empty_find (by decide +kernel)]; exact .absent) (by decide +kernel)
    load_a load_e
  intro t u
  rw [keep_b, keep_f]
  exact h t u
theorem same_dst' : SameContents (snap (ad 2) wSb) (snap (ad 4) wSf) := by
  refine C69_load_order wSa_ok wSe_ok new_b new_f (fun t u => ?_) (by decide +kernel) load_b load_f
  rw [keep_a, keep_e, empty_find (by decide +kernel), empty_find (by decide +kernel)]
  exact .absent

/-- Diffs that put their elements the other way round. -/
def backwards : DiffClass String := ⟨1, [1, 0], fun _ l => l.reverse, fun _ _ _ h => List.mem_reverse.1 h⟩
theorem reorders_backwards : backwards.Reorders := fun _ l => List.reverse_perm l

def wSb' := (syncFrom 10 20 (scripted String) (ad 2) (ad 1) (DiffClass.default _) 0 none wSb).2
def wSf' := (syncFrom 10 20 (scripted String) (ad 4) (ad 3) backwards 0 none wSf).2
theorem syncSb : syncFrom 10 20 (scripted String) (ad 2) (ad 1) (DiffClass.default _) 0 none wSb =
    ((syncFrom 10 20 (scripted String) (ad 2) (ad 1) (DiffClass.default _) 0 none wSb).1, wSb') := (Prod.eta _).symm
theorem syncSf : syncFrom 10 20 (scripted String) (ad 4) (ad 3) backwards 0 none wSf =
    ((syncFrom 10 20 (scripted String) (ad 4) (ad 3) backwards 0 none wSf).1, wSf') := (Prod.eta _).symm
theorem allSb : AllSucceed (newEvents wSb wSb') := allSucceed_of (by decide +kernel)
theorem allSf : AllSucceed (newEvents wSf wSf') := allSucceed_of (by decide +kernel)

/-- C70: the two syncs leave the same contents; they make their calls in different orders. -/
example : SameContents (snap (ad 2) wSb') (snap (ad 4) wSf') :=
  C70_same_outcome canSb reorders_default (by decide) syncSb allSb canSf reorders_backwards (by decide) syncSf allSf same_src' same_dst'
    (fun _ => Iff.rfl) (fun _ => Iff.rfl) rfl (noneGoesAlong_of (by decide +kernel))
example : (calls (newEvents wSb wSb')).length = 4 ∧ (calls (newEvents wSb wSb')) ≠ (calls (newEvents wSf wSf')) := by decide +kernel

/-- What goes along: a site flagged SKIP_CHILDREN_ON_DELETE that the source lacks, with a device flagged IGNORE. The device takes no part in the
comparison, and is gone afterwards. -/
def wAl : World String (List Outcome) :=
  addModels (ad 1) [site "nyc" []]
  (addModels (ad 2) [site "nyc" [], { site "lax" ["x"] with flags := MF.SKIP_CHILDREN_ON_DELETE }, { device "x" "leaf" [] with flags := MF.IGNORE }] (world0 String _ []))
example : (objs 2 wAl).length = 3 ∧ (objs 2 (sync wAl 0).2).length = 1 ∧ (calls (newEvents wAl (sync wAl 0).2)).length = 1 := by decide +kernel

end DS.Ex
