import Verif.Props.RedisNext
import Verif.Props.SyncRedisEx
import Verif.Props.ConvergeEx
/-! # C91: concrete syncs into a Redis store, and the diffs after them -/
set_option linter.unusedSectionVars false

namespace DS

section
variable {V : Type} [PyVal V] {src dst dst' : Adapter V} {n : Nat} {S D S' D' : Snap V}

/-- What can be reconciled depends on the objects, the classes and the types at the top only. -/
theorem Reconcilable.congr (h : Reconcilable src dst n S D) (hc : dst'.classes = dst.classes) (ht : dst'.topLevel = dst.topLevel)
    (hS : ∀ t u, S'.find t u = S.find t u) (hD : ∀ t u, D'.find t u = D.find t u) : Reconcilable src dst' n S' D' := by
  have hl : ∀ k c, Linked S' D' k c → Linked S D k c := fun k c h1 => by unfold Linked at h1 ⊢; rw [hS, hD] at h1; exact h1
  have hf : ∀ j k, FromTop src dst' S' D' j k → FromTop src dst S D j k := by
    intro j k h1
    induction h1 with
    | top a b => exact .top a (ht ▸ b)
    | down _ b ih => exact .down ih (hl _ _ b)
  refine ⟨fun k k' c a b => h.one_parent k k' c (hl _ _ a) (hl _ _ b), fun k c a => by rw [ht]; exact h.not_top k c (hl _ _ a), fun j k a => h.depth j k (hf _ _ a),
    fun k c => by rw [hS, hS]; exact h.src_stored k c, fun k c => by rw [hD, hD]; exact h.dst_stored k c, fun k c => by rw [hS, hD, hD]; exact h.src_place k c,
    fun k c => by rw [hS, hS, hD]; exact h.dst_place k c, by rw [hc, ht]; exact h.top_known, by rw [hc]; exact h.kids_known,
    fun k m => by rw [hS, hD]; exact h.sound k m, fun k s c => by rw [hS, hc]; exact h.source k s c, fun k s d => by rw [hS, hD]; exact h.pairs k s d, ?_⟩
  rintro k k' m m' ⟨h1, h2⟩ h3
  rw [hS, hS, hD, hD]
  refine h.names k k' m m' ⟨h1, ?_⟩ h3
  rcases h2 with h2 | ⟨p, a, b⟩
  · exact .inl (by rw [ht] at h2; exact h2)
  · exact .inr ⟨p, hl _ _ a, hl _ _ b⟩
end

namespace Ex

/-- A local source with some objects, and a destination in Redis with others. -/
def wR (l1 l2 : List (Model String)) : World String (List Outcome) := addModels (ad 1) l1 (addModels (adR 2 "two") l2 (world0 String _ []))
/-- The same with a local destination. -/
def wTwin (l1 l2 : List (Model String)) : World String (List Outcome) := addModels (ad 1) l1 (addModels (ad 2) l2 (world0 String _ []))
def lR (l2 : List (Model String)) : List ((String × String × String) × Model String) := l2.map fun m => (("two", m.type, m.uid), m)

theorem wR_ok (l1 l2 : List (Model String)) : (wR l1 l2).OK := addModels_ok _ _ _ (addModels_ok _ _ _ (world0_ok _))

/-- What can be computed of such a pair. -/
structure PairB (l1 l2 : List (Model String)) : Prop where
  holds : RedisHolds (wR l1 l2) (lR l2)
  dcls : ∀ x ∈ lR l2, Dict.get? (ad 2).classes x.1.2.1 = some x.2.cls
  cls : ∀ r, r < (wR l1 l2).next → Dict.get? (ad 2).classes ((wR l1 l2).heap r).m.type = some ((wR l1 l2).heap r).m.cls
  recon : ReconB 1 2 (wTwin l1 l2)
  src1 : ∀ x ∈ objs 1 (wR l1 l2), (snap (ad 1) (wTwin l1 l2)).find x.1.1 x.1.2 = some x.2
  src2 : ∀ x ∈ objs 1 (wTwin l1 l2), (snap (ad 1) (wR l1 l2)).find x.1.1 x.1.2 = some x.2
  dst1 : ∀ x ∈ lR l2, (snap (ad 2) (wTwin l1 l2)).find x.1.2.1 x.1.2.2 = some x.2
  dst2 : ∀ x ∈ objs 2 (wTwin l1 l2), (snap (adR 2 "two") (wR l1 l2)).find x.1.1 x.1.2 = some x.2

theorem find_eq_of {S S' : Snap String} (h1 : ∀ t u m, S.find t u = some m → S'.find t u = some m) (h2 : ∀ t u m, S'.find t u = some m → S.find t u = some m) (t u : String) :
    S.find t u = S'.find t u := by
  cases h : S.find t u with
  | some m => exact (h1 t u m h).symm
  | none =>
    cases h' : S'.find t u with
    | none => rfl
    | some m => rw [h2 t u m h'] at h; cases h

theorem PairB.pair {l1 l2 : List (Model String)} (h : PairB l1 l2) : RedisPair 10 (ad 1) (adR 2 "two") "two" (wR l1 l2) := by
  have hm : ∀ {t u : String} {m : Model String}, (snap (adR 2 "two") (wR l1 l2)).find t u = some m → (("two", t, u), m) ∈ lR l2 := fun hf => by
    obtain ⟨ht, o, ho, rfl⟩ := (redis_find (A := adR 2 "two") (sid := "two") rfl).1 hf
    exact h.holds.mem (by decide) ht ho
  have hnd := fun t u m hf => h.holds.nodup _ (hm (t := t) (u := u) (m := m) hf)
  have hcls := fun t u m hf => h.dcls _ (hm (t := t) (u := u) (m := m) hf)
  have hst := h.holds.ok (sid := "two") (by decide)
  refine ⟨⟨wR_ok _ _, ?_, ?_, serves_local rfl _, ?_, ?_, (by decide : (ad 0).topLevel.Nodup)⟩, ⟨⟨(ad_valid 2).names, (ad_valid 2).valid, (ad_valid 2).fields⟩, wR_ok _ _, ?_, hnd, ?_⟩, rfl, trivial, ?_⟩
  · exact consistent_local (wR_ok _ _) rfl fun r hr => ((ad_valid 2).valid _ _ (h.cls r hr)).children_nodup
  · exact consistent_redis rfl hst hnd
  · exact serves_redis rfl hst (by decide : ∀ t ∈ (ad 0).topLevel, Plain t) hnd (fun t u m hf => h.holds.kids _ (hm hf))
  · intro t u s d hs hd ct f f' a b
    simp only [snap, ad, Option.map_eq_some_iff] at hs
    obtain ⟨r, hr, rfl⟩ := hs
    have e2 := h.cls r ((wR_ok l1 l2).refs_lt _ _ _ _ hr)
    rw [((wR_ok l1 l2).key_ok _ _ _ _ hr).1, hcls t u d hd] at e2
    rw [Option.some.inj e2, a] at b
    exact Option.some.inj b
  · intro t u m c hf hc
    exact Option.some.inj ((hcls t u m hf).symm.trans hc)
  · intro sid hsid
    cases hsid
    refine ⟨hst, fun t c hc => ?_⟩
    have g : ∀ p ∈ (ad 0).classes, Plain p.1 := by decide +kernel
    exact g _ (Dict.mem_of_get? hc)
  · refine h.recon.reconcilable.congr rfl rfl (find_eq_of (fun t u m hf => ?_) fun t u m hf => ?_) (find_eq_of (fun t u m hf => ?_) fun t u m hf => ?_)
    · exact h.src1 _ (mem_objs (k := (t, u)) hf)
    · exact h.src2 _ (mem_objs (k := (t, u)) hf)
    · exact h.dst1 _ (hm hf)
    · exact h.dst2 _ (mem_objs (k := (t, u)) hf)

/-- The sync. -/
def sR (l1 l2 : List (Model String)) := syncFrom 10 20 (scripted String) (adR 2 "two") (ad 1) (DiffClass.default _) 0 none (wR l1 l2)
/-- The diff after it. -/
def dR (l1 l2 : List (Model String)) := diffFrom 10 (adR 2 "two") (ad 1) (DiffClass.default _) 0 (sR l1 l2).2

theorem aloneR {l1 l2 : List (Model String)} (h : PairB l1 l2) (hf : ∀ x ∈ l2, flagOn x.flags MF.SKIP_CHILDREN_ON_DELETE = false) (flags : Nat) :
    NoneTakesAlong (ad 1) (adR 2 "two") flags (snap (ad 1) (wR l1 l2)) (snap (adR 2 "two") (wR l1 l2)) := by
  intro k _ _ hs
  rcases hs with ⟨m, h1, h2⟩ | ⟨c, h1, h2⟩
  · obtain ⟨ht, o, ho, rfl⟩ := (redis_find (A := adR 2 "two") (sid := "two") rfl).1 h1
    have := h.holds.mem (by decide) ht ho
    unfold lR at this
    obtain ⟨x, hx, he⟩ := List.mem_map.1 this
    rw [← (Prod.mk.inj he).2, hf x hx] at h2; cases h2
  · have g : ∀ p ∈ (ad 2).classes, flagOn p.2.defaultFlags MF.SKIP_CHILDREN_ON_DELETE = false := by decide +kernel
    rw [g _ (Dict.mem_of_get? h1)] at h2; cases h2

theorem notIgnored_adR (i : Nat) (s : String) : NotIgnored (adR i s) := fun t c hc => by
  have g : ∀ p ∈ (ad 2).classes, flagOn p.2.defaultFlags MF.IGNORE = false := by decide +kernel
  exact g _ (Dict.mem_of_get? (show Dict.get? (ad 2).classes t = some c from hc))

theorem keep_adR (i : Nat) (s : String) (S : Snap String) : KeepsValuesOf (adR i s) S := keep_ad i S

/-- Whether a result shows differences; `none` if the diff raised. -/
def shows {X : Type} (r : Except X (Diff String)) : Option Bool := r.toOption.map Diff.hasDiffs

theorem throughR {l1 l2 : List (Model String)} (h : PairB l1 l2) (hf : ∀ x ∈ l2, flagOn x.flags MF.SKIP_CHILDREN_ON_DELETE = false)
    (hok : (sR l1 l2).1.toOption.isSome = true)
    (hn : (newEvents (wR l1 l2) (sR l1 l2).2).all (fun ev => match ev with | .noObject _ => false | _ => true) = true)
    (ha : (newEvents (wR l1 l2) (sR l1 l2).2).all (fun ev => match ev with | .call c out => out.result == .object && (c.act != .update || out.applied) | _ => true) = true) :
    ∃ d, WentThrough 10 20 (scripted String) (ad 1) (adR 2 "two") (DiffClass.default _) 0 (wR l1 l2) d (sR l1 l2).2 := by
  cases hr : (sR l1 l2).1 with
  | error x => rw [hr] at hok; cases hok
  | ok d =>
    refine ⟨d, ?_, reorders_default, noMissing_of hn, allSucceedR_of ha, aloneR h hf 0⟩
    show sR l1 l2 = _
    rw [← hr]

/-! A sync that updates a device, creates one below a kept site, creates a site and deletes another: the next diff returns, and shows the device and the update again. -/

def m1 : List (Model String) := [site "nyc" ["a", "b"], site "sfo" [], device "a" "leaf" [], device "b" "leaf" []]
def m2 : List (Model String) := [site "nyc" ["a"], device "a" "spine" [], site "lax" []]

theorem pairA : PairB m1 m2 where
  holds := ⟨by decide +kernel, by unfold Dict.WF; decide +kernel, by decide +kernel, by decide +kernel, by decide +kernel, by decide +kernel⟩
  dcls := by decide +kernel
  cls := by rw [show (wR m1 m2).next = 7 by decide +kernel]; decide +kernel
  recon := by constructor <;> decide +kernel
  src1 := by decide +kernel
  src2 := by decide +kernel
  dst1 := by decide +kernel
  dst2 := by decide +kernel

theorem throughA : ∃ d, WentThrough 10 20 (scripted String) (ad 1) (adR 2 "two") (DiffClass.default _) 0 (wR m1 m2) d (sR m1 m2).2 :=
  throughR pairA (by decide +kernel) (by decide +kernel) (by decide +kernel) (by decide +kernel)

/-- C91: what the theorems say of this sync. -/
example : SyncedRedis (ad 1) (adR 2 "two") 0 (snap (ad 1) (wR m1 m2)) (snap (adR 2 "two") (wR m1 m2)) (snap (adR 2 "two") (sR m1 m2).2) ∧
    ¬ DeletesBelowKept (ad 1) (adR 2 "two") 0 (snap (ad 1) (wR m1 m2)) (snap (adR 2 "two") (wR m1 m2)) ∧
    ∃ d d2 w2, WentThrough 10 20 (scripted String) (ad 1) (adR 2 "two") (DiffClass.default _) 0 (wR m1 m2) d (sR m1 m2).2 ∧
      diffFrom 10 (adR 2 "two") (ad 1) (DiffClass.default _) 0 (sR m1 m2).2 = (.ok d2, w2) ∧
      (∀ a k, Plans (adR 2 "two") d2 a k ↔ Plans (adR 2 "two") d a k ∧ (a = .update ∨ a = .create ∧ ¬ AtTop (ad 1) (adR 2 "two") k)) := by
  obtain ⟨d, hd⟩ := throughA
  have hs : shows (dR m1 m2).1 = some true := by decide +kernel
  cases hr : (dR m1 m2).1 with
  | error x => rw [hr] at hs; cases hs
  | ok d2 =>
    have h2 : diffFrom 10 (adR 2 "two") (ad 1) (DiffClass.default _) 0 (sR m1 m2).2 = (.ok d2, (dR m1 m2).2) := by
      show dR m1 m2 = _
      rw [← hr]
    exact ⟨(C91_outcome pairA.pair hd).1, (C91_next_returns pairA.pair hd (notIgnored_adR _ _) _).1 ⟨d2, by rw [h2]⟩, d, d2, _, hd, h2,
      (C91_next_plan pairA.pair hd (notIgnored_adR _ _) (keep_adR _ _ _).new h2).1⟩

/-! A sync that creates and deletes sites: it converges. -/

def m3 : List (Model String) := [site "nyc" ["a"], site "sfo" [], device "a" "leaf" []]
def m4 : List (Model String) := [site "nyc" ["a"], device "a" "leaf" [], site "lax" ["x"], device "x" "leaf" []]

theorem pairB : PairB m3 m4 where
  holds := ⟨by decide +kernel, by unfold Dict.WF; decide +kernel, by decide +kernel, by decide +kernel, by decide +kernel, by decide +kernel⟩
  dcls := by decide +kernel
  cls := by rw [show (wR m3 m4).next = 7 by decide +kernel]; decide +kernel
  recon := by constructor <;> decide +kernel
  src1 := by decide +kernel
  src2 := by decide +kernel
  dst1 := by decide +kernel
  dst2 := by decide +kernel

theorem throughB : ∃ d, WentThrough 10 20 (scripted String) (ad 1) (adR 2 "two") (DiffClass.default _) 0 (wR m3 m4) d (sR m3 m4).2 :=
  throughR pairB (by decide +kernel) (by decide +kernel) (by decide +kernel) (by decide +kernel)

example : (calls (newEvents (wR m3 m4) (sR m3 m4).2)).length = 3 ∧ shows (dR m3 m4).1 = some false := by decide +kernel
example : ∃ d, WentThrough 10 20 (scripted String) (ad 1) (adR 2 "two") (DiffClass.default _) 0 (wR m3 m4) d (sR m3 m4).2 ∧
    (∀ k, ¬ Plans (adR 2 "two") d .update k) ∧ (∀ k, Plans (adR 2 "two") d .create k → AtTop (ad 1) (adR 2 "two") k) := by
  obtain ⟨d, hd⟩ := throughB
  have hs : shows (dR m3 m4).1 = some false := by decide +kernel
  cases hr : (dR m3 m4).1 with
  | error x => rw [hr] at hs; cases hs
  | ok d2 =>
    rw [hr] at hs
    have := (C91_converges_iff pairB.pair hd (notIgnored_adR _ _) (keep_adR _ _ _).new (DiffClass.default _)).1 ⟨d2, hr, Option.some.inj hs⟩
    exact ⟨d, hd, this.1, this.2.1⟩

/-! A sync that deletes a device below a kept site: the next diff raises. -/

def m5 : List (Model String) := [site "nyc" ["a"], device "a" "leaf" []]
def m6 : List (Model String) := [site "nyc" ["a", "x"], device "a" "leaf" [], device "x" "leaf" []]

theorem pairC : PairB m5 m6 where
  holds := ⟨by decide +kernel, by unfold Dict.WF; decide +kernel, by decide +kernel, by decide +kernel, by decide +kernel, by decide +kernel⟩
  dcls := by decide +kernel
  cls := by rw [show (wR m5 m6).next = 5 by decide +kernel]; decide +kernel
  recon := by constructor <;> decide +kernel
  src1 := by decide +kernel
  src2 := by decide +kernel
  dst1 := by decide +kernel
  dst2 := by decide +kernel

theorem throughC : ∃ d, WentThrough 10 20 (scripted String) (ad 1) (adR 2 "two") (DiffClass.default _) 0 (wR m5 m6) d (sR m5 m6).2 :=
  throughR pairC (by decide +kernel) (by decide +kernel) (by decide +kernel) (by decide +kernel)

example : errOf (dR m5 m6) = some .objectNotFound := by decide +kernel
example : DeletesBelowKept (ad 1) (adR 2 "two") 0 (snap (ad 1) (wR m5 m6)) (snap (adR 2 "two") (wR m5 m6)) := by
  obtain ⟨d, hd⟩ := throughC
  refine Classical.byContradiction fun hn => ?_
  obtain ⟨d2, h2⟩ := (C91_next_returns pairC.pair hd (notIgnored_adR _ _) (DiffClass.default _)).2 hn
  have hs : shows (dR m5 m6).1 = none := by decide +kernel
  have h3 : (dR m5 m6).1 = .ok d2 := h2
  rw [h3] at hs
  cases hs

end Ex

end DS
