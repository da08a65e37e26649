import Verif.Props.SyncOrder
import Verif.Props.ChainEx
import Verif.Props.EscapeEx
import Verif.Props.RedisNextEx
/-! # Instances of the theorems of `Verif.Props.SyncOrder` -/
set_option maxRecDepth 100000

namespace DS
open Ex

/-- C94: the calls of the first sync of `wC`. -/
example : CallsFor 0 (snap (ad 1) wC) (snap (ad 2) wC) (visible 0 (topPlaces (ad 1) (ad 2) (snap (ad 1) wC) (snap (ad 2) wC)))
    ((callsOf (newEvents wC wC1)).map Prod.fst) := C94_calls canC (by decide) (fun _ _ => rfl) syncC allC

/-- All kinds of places: a device to update and one to create below a kept site, a site to create with a device below it, a site to delete with a device below
it, one to delete after its device (NATURAL_DELETION_ORDER), one to delete alone (SKIP_CHILDREN_ON_DELETE). -/
def wK : World String (List Outcome) :=
  addModels (ad 1) [site "sfo" ["s"], site "nyc" ["b", "a"], device "a" "leaf" [], device "b" "spine" [], device "s" "leaf" []]
  (addModels (ad 2) [site "ams" ["m"], device "m" "leaf" [], site "nat" ["n"] MF.NATURAL_DELETION_ORDER, device "n" "leaf" [],
    site "skp" ["k"] MF.SKIP_CHILDREN_ON_DELETE, device "k" "leaf" [], site "nyc" ["c", "a"], device "c" "leaf" [], device "a" "spine" []] (world0 String _ []))
theorem wK_ok : wK.OK := addModels_ok _ _ _ (addModels_ok _ _ _ (world0_ok _))
theorem canK : CanConverge 10 (ad 1) (ad 2) 2 wK :=
  canConverge_of (by decide) wK_ok (by decide +kernel) (by decide +kernel) (by constructor <;> decide +kernel)
/-- The world after the sync. -/
def wK1 := (syncFrom 10 20 (scripted String) (ad 2) (ad 1) (DiffClass.default _) 0 none wK).2
theorem callsK : CallsFor 0 (snap (ad 1) wK) (snap (ad 2) wK) (visible 0 (topPlaces (ad 1) (ad 2) (snap (ad 1) wK) (snap (ad 2) wK)))
    ((callsOf (newEvents wK wK1)).map Prod.fst) := C94_calls canK (rl := 20) (by decide) (fun _ _ => rfl) (Prod.eta _).symm (allSucceed_of (by decide +kernel))
theorem listK : (callsOf (newEvents wK wK1)).map Prod.fst =
    [.create "site" [("name", "sfo")] [], .create "device" [("name", "s")] [("role", "leaf")],
     .create "device" [("name", "b")] [("role", "spine")], .update "device" "a" [("role", "leaf")], .delete "device" "c",
     .delete "site" "ams", .delete "device" "m", .delete "device" "n", .delete "site" "nat", .delete "site" "skp"] := by decide +kernel
/-- C94: no other list of calls is the one the contents say. -/
example {cs : List (CrudCall String)} (h : CallsFor 0 (snap (ad 1) wK) (snap (ad 2) wK) (visible 0 (topPlaces (ad 1) (ad 2) (snap (ad 1) wK) (snap (ad 2) wK))) cs) :
    cs.length = 10 := by rw [C94_one_list h callsK, listK]; rfl

/-- C94: a sync that stops at its third call has made the first three of them. -/
example : ∃ rest, CallsFor 0 (snap (ad 1) wRta) (snap (ad 2) wRta) (visible 0 (topPlaces (ad 1) (ad 2) (snap (ad 1) wRta) (snap (ad 2) wRta)))
    ((callsOf (newEvents wRta (sync wRta 0).2)).map Prod.fst ++ rest) :=
  C94_first_calls canRta (rl := 20) (hooks := scripted String) (by decide) (fun _ _ => rfl) (Prod.eta _).symm (noMissing_of (by decide +kernel))

/-- C94: a Redis store. -/
example : CallsFor 0 (snap (ad 1) (wR m1 m2)) (snap (adR 2 "two") (wR m1 m2))
    (visible 0 (topPlaces (ad 1) (adR 2 "two") (snap (ad 1) (wR m1 m2)) (snap (adR 2 "two") (wR m1 m2))))
    ((callsOf (newEvents (wR m1 m2) (sR m1 m2).2)).map Prod.fst) :=
  C94_redis_calls pairA.pair (rl := 20) (by decide) (fun _ _ => rfl) (Prod.eta _).symm (allSucceed_of (by decide +kernel))
example : ∃ rest, CallsFor 0 (snap (ad 1) (wR m5 m6)) (snap (adR 2 "two") (wR m5 m6))
    (visible 0 (topPlaces (ad 1) (adR 2 "two") (snap (ad 1) (wR m5 m6)) (snap (adR 2 "two") (wR m5 m6))))
    ((callsOf (newEvents (wR m5 m6) (sR m5 m6).2)).map Prod.fst ++ rest) :=
  C94_redis_first_calls pairC.pair (rl := 20) (by decide) (fun _ _ => rfl) (Prod.eta _).symm (noMissing_of (by decide +kernel))
example : (callsOf (newEvents (wR m1 m2) (sR m1 m2).2)).map Prod.fst =
    [.update "device" "a" [("role", "leaf")], .create "device" [("name", "b")] [("role", "leaf")], .create "site" [("name", "sfo")] [], .delete "site" "lax"] := by
  decide +kernel

end DS
