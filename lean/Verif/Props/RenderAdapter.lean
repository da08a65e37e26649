import Verif.Lemmas.RenderText
import Verif.Props.Differ
/-! # C59: the text of an adapter -/

namespace DS
set_option linter.unusedSectionVars false
variable {V E : Type} [PyVal V]

/-- **C59** `Adapter.str()` changes nothing: no stored object, no store and no server content, and no user code is
called. -/
theorem C59_str_reads_only (R : Reprs V) (A : Adapter V) (n i : Nat) {w : World V E} (hw : w.OK) (hs : Serves A (snap A w))
    (ho : Owned A w) (hp : A.PlainStore) :
    (∀ B : Adapter V, snap B (adapterStr R A n i w).2 = snap B w) ∧ (∀ r, r < w.next → (adapterStr R A n i w).2.heap r = w.heap r) ∧
      (adapterStr R A n i w).2.redis = w.redis ∧ (adapterStr R A n i w).2.trace = w.trace ∧ (adapterStr R A n i w).2.env = w.env := by
  have h := (adapterStr_eq R A n i hw hs ho hp).1
  exact ⟨fun B => h.snap_eq hw.refs_lt hw.tbl_wf B, h.heap_eq, h.redis_eq, h.trace_eq, h.env_eq⟩

/-- **C59** The text shows every object that the adapter holds at the top level or, at any depth, as a child; a child
that is listed but not stored is reported and does not make `str()` fail. -/
theorem C59_str_shows_everything (R : Reprs V) (A : Adapter V) (n i : Nat) {w w' : World V E} {s : String} (hw : w.OK)
    (hs : Serves A (snap A w)) (ho : Owned A w) (hp : A.PlainStore) (h : adapterStr R A n i w = (.ok s, w'))
    {t : String} (ht : t ∈ A.topLevel) {m x : Model V} (hm : m ∈ (snap A w).all t) (hx : Beneath (snap A w) m x) :
    Appears (x.type ++ ": " ++ x.uid ++ ": " ++ R.attrs x.attrs) s ∧
      ∀ ct u, Lists x ct u → (snap A w).find ct u = none → Appears (u ++ " (ERROR: details unavailable)") s := by
  have he := (adapterStr_eq R A n i hw hs ho hp).2
  rw [h] at he
  obtain ⟨s1, h1, o1⟩ := top_text he.symm ht hm
  obtain ⟨n2, i2, s2, h2, o2⟩ := beneath_text hx h1
  refine ⟨(head_occurs h2).trans (o2.trans o1), ?_⟩
  intro ct u hl hf
  cases n2 with
  | zero => cases h2
  | succ n2 =>
    obtain ⟨b, hb, ob⟩ := child_text h2 hl
    unfold pChild at hb
    rw [hf] at hb
    cases hb
    refine Appears.trans ?_ (ob.trans (o2.trans o1))
    unfold missingText
    exact ⟨"\n" ++ margin i2 ++ "    ", "", by simp [String.append_assoc]⟩

/-- **C59** The only way to fail is Python's recursion limit, and it is not reached when the objects are nested less
deep than it. -/
theorem C59_str_fails_only_on_depth (R : Reprs V) (A : Adapter V) (n i : Nat) {w : World V E} (hw : w.OK)
    (hs : Serves A (snap A w)) (ho : Owned A w) (hp : A.PlainStore) :
    (∀ e, (adapterStr R A n i w).1 = .error e → e = .recursionError) ∧
    ∀ rank : Model V → Nat, (∀ m ct u x, Held (snap A w) m → Lists m ct u → (snap A w).find ct u = some x → rank x < rank m) →
      (∀ t ∈ A.topLevel, ∀ m ∈ (snap A w).all t, rank m < n) → ∃ s, (adapterStr R A n i w).1 = .ok s := by
  have he := (adapterStr_eq R A n i hw hs ho hp).2
  rw [he]
  refine ⟨fun e h => pAdapter_error h, ?_⟩
  intro rank hr htop
  cases hpa : pAdapter R (snap A w) A.topLevel n i with
  | ok s => exact ⟨s, rfl⟩
  | error e =>
    exfalso
    unfold pAdapter at hpa
    obtain ⟨t, ht, h⟩ := eachE_error (bind_error_inv hpa)
    unfold pTop at h
    split at h
    · cases h
    · obtain ⟨m, hm, h⟩ := eachE_error (bind_error_inv h)
      obtain ⟨s, hs⟩ := pModel_ok (R := R) hr n (i + 2) m (.inr ⟨t, hm⟩) (htop t ht m hm)
      rw [hs] at h
      cases h

/-- **C59** The text is determined by the contents: adapters with the same top-level types and the same contents,
whatever their stores, have the same text. -/
theorem C59_same_contents_same_text (R : Reprs V) (A B : Adapter V) (n i : Nat) {w : World V E} (hw : w.OK)
    (hsA : Serves A (snap A w)) (hoA : Owned A w) (hpA : A.PlainStore) (hsB : Serves B (snap B w)) (hoB : Owned B w)
    (hpB : B.PlainStore) (htop : A.topLevel = B.topLevel) (h : snap A w = snap B w) :
    (adapterStr R A n i w).1 = (adapterStr R B n i w).1 := by
  rw [(adapterStr_eq R A n i hw hsA hoA hpA).2, (adapterStr_eq R B n i hw hsB hoB hpB).2, htop, h]

namespace Ex

/-- A simple format. -/
def reprs : Reprs String := ⟨fun d => joinSep ", " (d.map (fun p => p.1 ++ "=" ++ p.2)), fun l => joinSep ", " l⟩

/-- All stored references of the local store `k`. -/
def refsOf (k : Nat) (w : World String (List Outcome)) : List Ref := (w.loc k).flatMap (fun p => Dict.values p.2)

theorem owned_ad {w : World String (List Outcome)} (k : Nat)
    (h : (refsOf k w).all (fun r => (w.heap r).adapter == some (ad k).ref) = true) : Owned (ad k) w := by
  intro sid hs t u r hf
  cases hs
  refine ⟨(ad k).ref, ?_, rfl⟩
  have hr : r ∈ refsOf k w := by
    unfold findRef tbl at hf
    cases hg : Dict.get? (w.loc k) t with
    | none => rw [hg] at hf; simp at hf
    | some d =>
      rw [hg] at hf
      simp only [Option.getD_some] at hf
      refine List.mem_flatMap.2 ⟨(t, d), Dict.mem_of_get? hg, ?_⟩
      exact List.mem_map.2 ⟨(u, r), Dict.mem_of_get? hf, rfl⟩
  have := List.all_eq_true.1 h r hr
  simpa using this

/-- A site with two devices, one of them with an interface, and an id that is not stored. -/
def wStr : World String (List Outcome) :=
  addModels (ad 1) [site "nyc" ["a", "b", "gone"], device "a" "leaf" ["a__eth0"], device "b" "spine" [], interface "a" "eth0" "up"]
    (world0 String (List Outcome) [])

theorem wStr_ok : wStr.OK := addModels_ok _ _ _ (world0_ok _)
theorem wStr_owned : Owned (ad 1) wStr := owned_ad 1 (by decide +kernel)
theorem ad_plainStore (k : Nat) : (ad k).PlainStore := by intro sid h; cases h
theorem ad_serves (k : Nat) (S : Snap String) : Serves (ad k) S := ⟨fun _ _ => trivial, fun _ _ _ _ _ => trivial, fun _ _ _ _ _ _ => trivial⟩

example : (adapterStr reprs (ad 1) 5 0 wStr).1.toOption =
    some "site\n  site: nyc: \n    devices\n      device: a: role=leaf\n        interfaces\n          interface: a__eth0: type=ethernet, desc=up\n      device: b: role=spine\n        interfaces: []\n      gone (ERROR: details unavailable)" := by
  decide +kernel
example : (∀ B : Adapter String, snap B (adapterStr reprs (ad 1) 5 0 wStr).2 = snap B wStr) :=
  (C59_str_reads_only reprs (ad 1) 5 0 wStr_ok (ad_serves 1 _) wStr_owned (ad_plainStore 1)).1

theorem held_local {w : World String (List Outcome)} (hw : w.OK) {k : Nat} {m : Model String} (h : Held (snap (ad k) w) m) :
    ∃ r, r < w.next ∧ m = (w.heap r).m := by
  rcases h with ⟨t, u, h⟩ | ⟨t, h⟩
  · simp only [snap, ad, Option.map_eq_some_iff] at h
    obtain ⟨r, hr, rfl⟩ := h
    exact ⟨r, hw.refs_lt _ _ _ _ hr, rfl⟩
  · simp only [snap, ad, List.mem_map] at h
    obtain ⟨r, hr, rfl⟩ := h
    obtain ⟨⟨u, r⟩, hk, rfl⟩ := List.mem_map.1 hr
    exact ⟨r, hw.refs_lt _ _ _ _ (Dict.get?_of_mem (hw.tbl_wf _ _) hk), rfl⟩

/-- Where the classes have children of lower rank only, listed children have a lower rank. -/
theorem rank_local {w : World String (List Outcome)} (hw : w.OK) {k : Nat}
    (h : ∀ r, r < w.next → ∀ p ∈ (w.heap r).m.cls.children, rank p.1 < rank (w.heap r).m.type)
    (m : Model String) (ct u : String) (x : Model String) (hm : Held (snap (ad k) w) m) (hl : Lists m ct u)
    (hf : (snap (ad k) w).find ct u = some x) : rank x.type < rank m.type := by
  obtain ⟨r, hr, rfl⟩ := held_local hw hm
  obtain ⟨f, hmem, -⟩ := hl
  simp only [snap, ad, Option.map_eq_some_iff] at hf
  obtain ⟨q, hq, rfl⟩ := hf
  rw [(hw.key_ok _ _ _ _ hq).1]
  exact h r hr _ hmem

theorem rank_lt (t : String) : rank t < 5 := by
  simp only [rank]
  repeat' split
  all_goals omega

theorem wStr_str : ∃ s, (adapterStr reprs (ad 1) 5 0 wStr).1 = .ok s :=
  (C59_str_fails_only_on_depth reprs (ad 1) 5 0 wStr_ok (ad_serves 1 _) wStr_owned (ad_plainStore 1)).2
    (fun m => rank m.type) (rank_local wStr_ok (by decide +kernel)) (fun _ _ _ _ => rank_lt _)

-- the interface two levels down and the missing device are shown
theorem wStr_nyc : site "nyc" ["a", "b", "gone"] ∈ (snap (ad 1) wStr).all "site" := by decide +kernel
theorem wStr_a : (snap (ad 1) wStr).find "device" "a" = some (device "a" "leaf" ["a__eth0"]) := by decide +kernel
theorem wStr_eth0 : (snap (ad 1) wStr).find "interface" "a__eth0" = some (interface "a" "eth0" "up") := by decide +kernel
theorem wStr_gone : (snap (ad 1) wStr).find "device" "gone" = none := by decide +kernel
theorem nyc_lists (u : String) (h : u ∈ ["a", "b", "gone"]) : Lists (site "nyc" ["a", "b", "gone"]) "device" u :=
  ⟨"devices", by decide +kernel, h⟩
example (s : String) (w' : World String (List Outcome)) (h : adapterStr reprs (ad 1) 5 0 wStr = (.ok s, w')) :
    Appears ((interface "a" "eth0" "up").type ++ ": " ++ (interface "a" "eth0" "up").uid ++ ": " ++ reprs.attrs (interface "a" "eth0" "up").attrs) s ∧
    Appears ("gone" ++ " (ERROR: details unavailable)") s := by
  have hb : Beneath (snap (ad 1) wStr) (site "nyc" ["a", "b", "gone"]) (device "a" "leaf" ["a__eth0"]) :=
    .child .self (nyc_lists "a" (by decide)) wStr_a
  have hl : Lists (device "a" "leaf" ["a__eth0"]) "interface" "a__eth0" := ⟨"interfaces", by decide +kernel, by decide +kernel⟩
  have g := fun x => C59_str_shows_everything reprs (ad 1) 5 0 wStr_ok (ad_serves 1 _) wStr_owned (ad_plainStore 1) h
    (t := "site") (List.mem_singleton.2 rfl) (x := x) wStr_nyc
  exact ⟨(g _ (hb.child hl wStr_eth0)).1, (g _ .self).2 _ _ (nyc_lists "gone" (by decide)) wStr_gone⟩

/-- Two adapters with one store. -/
example : (adapterStr reprs (ad 1) 5 0 wStr).1 = (adapterStr reprs { ad 1 with ref := ⟨7, .local 1⟩, name := "other" } 5 0 wStr).1 :=
  C59_same_contents_same_text reprs _ _ 5 0 wStr_ok (ad_serves 1 _) wStr_owned (ad_plainStore 1)
    ⟨fun _ _ => trivial, fun _ _ _ _ _ => trivial, fun _ _ _ _ _ _ => trivial⟩ wStr_owned (by intro sid h; cases h) rfl rfl

/-- The same contents in a Redis store. -/
example : (adapterStr reprs (adR 3 "one") 5 0 (addModels (adR 3 "one")
    [site "nyc" ["a", "b", "gone"], device "a" "leaf" ["a__eth0"], device "b" "spine" [], interface "a" "eth0" "up"] wStr)).1.toOption =
    (adapterStr reprs (ad 1) 5 0 wStr).1.toOption := by decide +kernel

/-- Adding one instance to two adapters: it keeps referring to the first one. -/
def wShared : World String (List Outcome) :=
  (do let r ← alloc { m := site "nyc" ["a"] }
      add (ad 1) r
      let d ← alloc { m := device "a" "leaf" [] }
      add (ad 1) d
      add (ad 2) r
      let d ← alloc { m := device "a" "spine" [] }
      add (ad 2) d : M String (List Outcome) Unit) (world0 String (List Outcome) []) |>.2

/-- **C59**, why `Owned` is assumed: an object added to a second adapter shows its children as the first adapter has
them, so the text of the second adapter shows an object that it does not hold. -/
theorem C59_shared_object_shows_other_adapter :
    (adapterStr reprs (ad 2) 5 0 wShared).1.toOption = some "site\n  site: nyc: \n    devices\n      device: a: role=leaf\n        interfaces: []" ∧
      (snap (ad 2) wShared).find "device" "a" = some (device "a" "spine" []) := by
  decide +kernel

end Ex
end DS
