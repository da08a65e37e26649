import Verif.Props.SyncSeen
import Verif.Props.DiffCmdEx
import Verif.Props.SyncEx
/-! # C83: a concrete sync whose diff mixes moments of the source -/
set_option linter.unusedSectionVars false

namespace DS.Ex

/-- The destination: the site `nyc` with the device `d1`, and the site `old` with the device `d9`. -/
def wY : World String (List Outcome) := addModels (ad 2) [site "nyc" ["d1"], device "d1" "leaf" [], site "old" ["d9"], device "d9" "leaf" []] (world0 String _ [])
def ctxY : DiffCtx String := ⟨srcX, ad 2, 0⟩
def diffY : Proc String (List (Elem String)) := qDiff ctxY (View.of srcX wY) (View.of (ad 2) wY) 5

theorem wY_ok : wY.OK := addModels_ok _ _ _ (world0_ok _)
theorem wY_inst : ∀ r, r < wY.next → Dict.get? (ad 0).classes (wY.heap r).m.type = some (wY.heap r).m.cls := by decide +kernel
theorem wY_ready : DstReady (ad 2) wY := (ready_ad wY_ok 2 wY_inst).dst
theorem wY_found {t u : String} {m : Model String} (h : (snap (ad 2) wY).find t u = some m) :
    (m.type = t ∧ m.uid = u) ∧ ∀ p ∈ m.cls.children, p = ("device", "devices") ∨ p = ("interface", "interfaces") := by
  refine ⟨(comparable_local wY_ok rfl rfl (by decide +kernel) (by decide +kernel) (by decide) : Comparable (ad 2) (ad 2) wY).dst_ok.key_ok t u m h, ?_⟩
  simp only [snap, ad] at h
  obtain ⟨r, hf, rfl⟩ := Option.map_eq_some_iff.1 h
  have : ∀ r, r < wY.next → ∀ p ∈ (wY.heap r).m.cls.children, p = ("device", "devices") ∨ p = ("interface", "interfaces") := by decide +kernel
  exact this r (wY_ok.refs_lt _ _ _ _ hf)

theorem diffY_proper : Sends Cmd.Proper diffY :=
  Sends.imp (fun c hc => by cases c <;> first | trivial | exact hc.elim) (C82_reads_only _ _ _ _)

/-- Contents whose objects are of the classes of the adapters. -/
def usualIds (d : Dict (Obj String)) : Bool := d.all fun x => (ad 2).classes.all fun y => decide (y.1 = x.2.m.type → y.2.identifiers = x.2.m.cls.identifiers)

theorem comparableY : Comparable (ad 2) (ad 2) wY := comparable_local wY_ok rfl rfl (by decide +kernel) (by decide +kernel) (by decide)
theorem seenY {H : Dict (Obj String) → Prop} {t u : String} {m : Model String} (h : Seen (View.of (ad 2) wY) H t u (some m)) : (snap (ad 2) wY).find t u = some m :=
  seen_local rfl h
theorem soundY (H : Dict (Obj String) → Prop) : (View.of (ad 2) wY).Sound H := sound_local (sid := 2) rfl comparableY.dst_ok wY_ready H

theorem readableY {l : List (Sys String (List (Elem String)))} {s' : Sys String (List (Elem String))} {q : Proc String (List (Elem String))}
    (he : Exec (two contX diffY q) l s') (hq : Sends Cmd.Proper q) (hg : ∀ d, Moments l d → goodClasses d = true)
    (hf : ∀ d, Moments l d → usualFields d = true) :
    Readable ctxY (View.of srcX wY) (View.of (ad 2) wY) (Moments l) := by
  have hS : (View.server srcX "x").Sound (Moments l) := by
    refine C82_sound he (fun j => ?_) contX_right srcX (by decide) (fun d hd key o => goodClasses_iff (hg d hd) key o)
    unfold two
    by_cases h0 : j = 0
    · simp only [h0, if_true]; exact diffY_proper
    · by_cases h1 : j = 1
      · simp only [h1, if_true, if_neg (show (1 : Nat) ≠ 0 by decide)]; exact hq
      · simp only [if_neg h0, if_neg h1]; exact .ret _
  refine ⟨hS, soundY _, ?_, fun _ _ => trivial, ?_, (by decide : (ad 2).topLevel.Nodup)⟩
  · intro t ht
    have : t = "site" := by simpa [ctxY, srcX, adR, ad] using ht
    subst this
    exact (by decide : Plain "site")
  · rintro t u s d ⟨x, hx, hs⟩ h ct f f' h1 h2
    have hx2 := hf x hx
    unfold usualFields at hx2
    rw [List.all_eq_true] at hx2
    change (Dict.get? x (redisKey "x" t u)).map Obj.m = some s at hs
    cases ho : Dict.get? x (redisKey "x" t u) with
    | none => rw [ho] at hs; cases hs
    | some o =>
      rw [ho] at hs
      cases hs
      have h3 := hx2 _ (Dict.mem_of_get? ho)
      rw [List.all_eq_true] at h3
      have h4 := of_decide_eq_true (h3 _ (Dict.mem_of_get? h1))
      have h5 := (wY_found (seenY h)).2 _ (Dict.mem_of_get? h2)
      simp only [Prod.mk.injEq] at h4 h5
      rcases h4 with h4 | h4 <;> rcases h5 with h5 | h5 <;> first | exact h4.2.trans h5.2.symm | exact absurd (h4.1.symm.trans h5.1) (by decide)

/-- The sync with the given elements as diff. -/
def syncY (es : List (Elem String)) := syncFrom 10 20 (scripted String) (ad 2) srcX (DiffClass.default _) 0 (some ⟨DiffClass.default _, es, 0⟩) wY
/-- The calls of a sync, in words. -/
def callNames (w' : World String (List Outcome)) : List String :=
  (calls (newEvents wY w')).map fun c => match c with
    | .create t ids a => "create " ++ t ++ " " ++ (Dict.get? ids "name").getD "" ++ ((Dict.get? a "role").map (" " ++ ·)).getD ""
    | .update t u a => "update " ++ t ++ " " ++ u ++ ((Dict.get? a "role").map (" " ++ ·)).getD ""
    | .delete t u => "delete " ++ t ++ " " ++ u

/-- **C83** A sync with such a diff: `d1` becomes a spine, `d2` and `atl` are created, `old` and `d9` deleted; `lax`, which was added before `d1` was changed, is not
created.  All the hypotheses of the theorems hold. -/
theorem C83_mixed : ∃ (l : List (Sys String (List (Elem String)))) (s' : Sys String (List (Elem String))) (d : Diff String) (res : Except Err (Diff String))
    (w' : World String (List Outcome)),
    DiffThenSync 0 (two contX diffY writer) l s' 5 10 20 (scripted String) (ad 2) srcX (DiffClass.default _) 0 d wY res w' ∧
      callNames w' = ["update device d1 spine", "create device d2 leaf", "create site atl", "delete site old", "delete device d9"] := by
  obtain ⟨l, h1, h2⟩ := drive_exec schedW contX diffY writer
  have hr : ((outcome (drive schedW contX diffY writer).2.2.1).map fun r => (r.toOption.map fun es => (decide ((⟨DiffClass.default _, es, 0⟩ : Diff String).len ≠ 0), callNames (syncY es).2))) =
      some (some (true, ["update device d1 spine", "create device d2 leaf", "create site atl", "delete site old", "delete device d9"])) := by decide +kernel
  cases ho : outcome (drive schedW contX diffY writer).2.2.1 with
  | none => rw [ho] at hr; cases hr
  | some r =>
    rw [ho] at hr
    cases r with
    | error e => cases hr
    | ok es =>
      simp only [Option.map_some, Except.toOption, Option.some.injEq, Prod.mk.injEq] at hr
      have hc : (drive schedW contX diffY writer).1.all (fun d => goodClasses d && usualFields d && usualIds d) = true := by decide +kernel
      rw [List.all_eq_true] at hc
      have hc' : ∀ d, Moments l d → (goodClasses d = true ∧ usualFields d = true) ∧ usualIds d = true := fun d hd => by
        have := hc d (h2 d hd)
        simpa only [Bool.and_eq_true] using this
      have hR := readableY h1 writer_proper (fun d hd => (hc' d hd).1.1) (fun d hd => (hc' d hd).1.2)
      refine ⟨l, _, ⟨DiffClass.default _, es, 0⟩, (syncY es).1, (syncY es).2, ⟨h1, rfl, ?_, hR, ?_, ⟨2, rfl⟩, wY_ready, of_decide_eq_true hr.1, rfl⟩, hr.2⟩
      · rw [outcome_eq ho]; rfl
      · rintro t u s c ⟨x, hx, hs⟩ hcl
        refine ⟨?_, keepsIds_untyped (ad_untyped hcl) _⟩
        change (Dict.get? x (redisKey "x" t u)).map Obj.m = some s at hs
        cases hox : Dict.get? x (redisKey "x" t u) with
        | none => rw [hox] at hs; cases hs
        | some o =>
          have hpl : Plain t := by
            have := Dict.mem_of_get? hcl
            simp only [ad, List.mem_cons, List.not_mem_nil, or_false, Prod.mk.injEq] at this
            rcases this with ⟨rfl, _⟩ | ⟨rfl, _⟩ | ⟨rfl, _⟩ <;> decide
          have hk := (hR.src.keys t u s hpl ⟨x, hx, hs⟩).1
          rw [hox] at hs
          cases hs
          have hi := (hc' x hx).2
          unfold usualIds at hi
          rw [List.all_eq_true] at hi
          have hi := hi _ (Dict.mem_of_get? hox)
          rw [List.all_eq_true] at hi
          exact of_decide_eq_true (hi _ (Dict.mem_of_get? hcl)) hk.symm

end DS.Ex
