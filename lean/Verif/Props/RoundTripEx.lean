import Verif.Props.RoundTrip
import Verif.Props.ConvergeEx
/-! # Concrete adapters that are exported and loaded -/
set_option linter.unusedSectionVars false

namespace DS.Ex

theorem plain_string (m : Model String) : PlainDefaults m := by
  intro f v d _ _ h
  have h : v = d := by simpa [PyVal.eq] using h
  subst h
  exact ⟨by simp [PyVal.eq], fun _ => rfl⟩

/-- Instances of the example classes, as far as exporting is concerned. -/
def exportB (x : Key × Model String) : Prop :=
  Dict.get? (ad 0).classes x.1.1 = some x.2.cls ∧ Dict.keys x.2.vals = x.2.cls.fieldNames ∧ Dict.keys x.2.kids = x.2.cls.childFields
instance : DecidablePred exportB := fun _ => inferInstanceAs (Decidable (_ ∧ _ ∧ _))

theorem childFields_nodup {c : ModelClass String} {t : String} (h : Dict.get? (ad 0).classes t = some c) : c.childFields.Nodup := by
  have := Dict.mem_of_get? h
  simp only [ad, List.mem_cons, List.not_mem_nil, or_false, Prod.mk.injEq] at this
  rcases this with ⟨_, rfl⟩ | ⟨_, rfl⟩ | ⟨_, rfl⟩ <;> decide

theorem exportable_ad {w : World String (List Outcome)} (hw : w.OK) (s : Nat) (h : ∀ x ∈ objs s w, exportB x) : Exportable (ad s) w where
  ok := hw
  consistent := by
    refine consistent_stored hw rfl (fun t u r hf => ?_)
    obtain ⟨h1, _⟩ := h _ (mem_objs (s := s) (k := (t, u)) (m := (w.heap r).m) (by simp [snap, ad, hf]))
    exact ((ad_valid 0).valid _ _ h1).children_nodup
  known t u m hm := (h _ (mem_objs (k := (t, u)) hm)).1
  valid t u m hm := (ad_valid 0).valid _ _ (h _ (mem_objs (k := (t, u)) hm)).1
  complete t u m hm := by
    obtain ⟨h1, h2, h3⟩ := h _ (mem_objs (k := (t, u)) hm)
    exact ⟨h2, by unfold Dict.WF; rw [h3]; exact childFields_nodup h1, fun f => by rw [h3]⟩
  plain t u m hm := plain_string m
  parsed t u m hm f v _ := parse_untyped (ad_untyped (h _ (mem_objs (k := (t, u)) hm)).1) f v

theorem same_ad (i j : Nat) : SameClass (ad i) (ad j) where
  classes := rfl
  topLevel := rfl
  top_nodup := by simp [ad]
  classes_wf := by unfold Dict.WF Dict.keys; simp [ad]
  top_known := by simp [ad, Dict.keys]

theorem same_adR (i j : Nat) (sid : String) : SameClass (ad i) (adR j sid) := { same_ad i j with classes := rfl, topLevel := rfl }

theorem empty_ad {w : World String (List Outcome)} (s : Nat) (h : w.loc s = []) (t u : String) : (snap (ad s) w).find t u = none := by
  simp [snap, ad, findRef, tbl, h, Dict.get?]

/-- A world with nested objects, a flag, and values equal to their defaults. -/
def wX : World String (List Outcome) :=
  addModels (ad 1) [site "nyc" ["b", "a"] 1, device "a" "leaf" ["a__eth0"], device "b" "spine" [], interface "a" "eth0" "", site "sfo" []] (world0 String _ [])

theorem wX_ok : wX.OK := addModels_ok _ _ _ (world0_ok _)
theorem wX_exportable : Exportable (ad 1) wX := exportable_ad wX_ok 1 (by decide +kernel)
theorem wX_redis : RedisOK wX where
  wf := by rw [show wX.redis = [] by decide +kernel]; exact List.nodup_nil
  keys := by rw [show wX.redis = [] by decide +kernel]; intro k hk; cases hk

/-- C46 applies to it, … -/
example := C46_round_trip (ad 1) (ad 2) true wX_exportable (fun s hs => by cases hs) (same_ad 1 2) rfl (by decide)
  (empty_ad 2 (by decide +kernel))
example := C46_load_into_redis (ad 1) (adR 2 "s") false wX_exportable (fun s hs => by cases hs) wX_redis (by decide) (same_adR 1 2 "s") rfl (by decide) (by decide)
  (fun t u => by simp [snap, adR, show wX.redis = [] by decide +kernel, Dict.get?])

/-- … and, computed, the export omits what equals a default. -/
example : (adapterDict (ad 1) true wX).1.toOption.bind (fun data => (entry data "device" "a").map ObjDict.vals) = some [("name", "a")] := by decide +kernel
example : (adapterDict (ad 1) true wX).1.toOption.bind (fun data => (entry data "device" "a").map ObjDict.kids) = some [("interfaces", ["a__eth0"])] := by decide +kernel
example : (adapterDict (ad 1) true wX).1.toOption.bind (fun data => (entry data "site" "nyc").map ObjDict.kids) = some [("devices", ["b", "a"])] := by decide +kernel
example : (adapterDict (ad 1) true wX).1.toOption.bind (fun data => (entry data "site" "nyc").map ObjDict.flags) = some (some 1) := by decide +kernel
example : (adapterDict (ad 1) true wX).1.toOption.map (fun data => (entry data "site" "lax").isNone) = some true := by decide +kernel

end DS.Ex
