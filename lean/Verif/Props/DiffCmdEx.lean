import Verif.Props.DiffCmd
import Verif.Props.ConcurrentEx
/-! # C82: concrete executions in which another client writes while a diff is computed -/
set_option linter.unusedSectionVars false

namespace DS.Ex
variable {α : Type}

/-- Two clients at work: `true` in the schedule lets client 0 send its next command, `false` client 1.  The contents of the server before each command, and the
state in the end. -/
def drive : List Bool → Dict (Obj String) → Proc String α → Proc String α → List (Dict (Obj String)) × Dict (Obj String) × Proc String α × Proc String α
  | true :: sch, d, .cmd c k, q => let r := drive sch (c.exec d).2 (k (c.exec d).1) q; (d :: r.1, r.2)
  | false :: sch, d, p, .cmd (.get key) k => let r := drive sch d p (k (Dict.get? d key)); (d :: r.1, r.2)
  | false :: sch, d, p, .cmd (.set key o) k => let r := drive sch (Dict.set d key o) p (k ()); (d :: r.1, r.2)
  | false :: sch, d, p, .cmd (.exist key) k => let r := drive sch d p (k (Dict.has d key)); (d :: r.1, r.2)
  | false :: sch, d, p, .cmd (.del key) k => let r := drive sch (Dict.erase d key) p (k ()); (d :: r.1, r.2)
  | _ :: sch, d, p, q => drive sch d p q
  | [], d, p, q => ([d], d, p, q)

theorem two_scan0' {d : Dict (Obj String)} {pfx : String} {k : List String → Proc String α} {q : Proc String α} {l : List (Sys String α)} {s' : Sys String α} (ks : List String)
    (hk : ∀ x, x ∈ ks ↔ Found d pfx x) (h : Exec (two d (k ks) q) l s') : ∃ l', Exec (two d (.cmd (.scan pfx) k) q) l' s' ∧ ∀ x, Moments l' x → x = d ∨ Moments l x := by
  have e : two d (k ks) q = ⟨d, fun j => if j = 0 then .at (k ks) else if j = 0 then .scanning pfx (Found d pfx) (Found d pfx) k else (two d (.cmd (.scan pfx) k) q).cl j⟩ := by
    unfold two
    congr
    funext j
    by_cases h0 : j = 0
    · simp [h0]
    · simp [h0]
  rw [e] at h
  refine ⟨_, .step (.scanBegins (i := 0) (pfx := pfx) (k := k) rfl) (.step (.scanEnds (i := 0) (pfx := pfx) (k := k) rfl ks (fun x hx => (hk x).2 hx) (fun x hx => ⟨(hk x).1 hx, ((hk x).1 hx).2⟩)) h), ?_⟩
  rintro x ⟨s1, hs1, rfl⟩
  rw [List.mem_cons, List.mem_cons] at hs1
  rcases hs1 with rfl | rfl | hs1
  · exact .inl rfl
  · exact .inl rfl
  · exact .inr ⟨s1, hs1, rfl⟩

theorem mem_cons_of {d x : Dict (Obj String)} {L : List (Dict (Obj String))} {s0 : Sys String α} {l : List (Sys String α)} (h0 : s0.srv = d) (h : ∀ x, Moments l x → x ∈ L)
    (hx : Moments (s0 :: l) x) : x ∈ d :: L := by
  obtain ⟨s1, hs1, rfl⟩ := hx
  rw [List.mem_cons] at hs1
  rcases hs1 with rfl | hs1
  · simp [h0]
  · exact List.mem_cons_of_mem _ (h _ ⟨s1, hs1, rfl⟩)

/-- What `drive` shows is an execution. -/
theorem drive_exec (sch : List Bool) (d : Dict (Obj String)) (p q : Proc String α) :
    ∃ l, Exec (two d p q) l (two (drive sch d p q).2.1 (drive sch d p q).2.2.1 (drive sch d p q).2.2.2) ∧ ∀ x, Moments l x → x ∈ (drive sch d p q).1 := by
  fun_induction drive sch d p q with
  | case1 sch d c k q r ih =>
    obtain ⟨l, h1, h2⟩ := ih
    by_cases hc : c.isScan
    · cases c with
      | scan pfx =>
        obtain ⟨l', h3, h4⟩ := two_scan0' (d := d) (scanKeys d pfx) (fun x => by simp [scanKeys, Found]) h1
        refine ⟨l', h3, fun x hx => ?_⟩
        rcases h4 x hx with rfl | hx
        · simp
        · exact List.mem_cons_of_mem _ (h2 x hx)
      | _ => exact hc.elim
    · exact ⟨_, .step (two_step0 hc) h1, fun x => mem_cons_of rfl h2⟩
  | case2 sch d p key k r ih =>
    obtain ⟨l, h1, h2⟩ := ih
    exact ⟨_, .step (two_step1 (c := .get key) id) h1, fun x => mem_cons_of rfl h2⟩
  | case3 sch d p key o k r ih =>
    obtain ⟨l, h1, h2⟩ := ih
    exact ⟨_, .step (two_step1 (c := .set key o) id) h1, fun x => mem_cons_of rfl h2⟩
  | case4 sch d p key k r ih =>
    obtain ⟨l, h1, h2⟩ := ih
    exact ⟨_, .step (two_step1 (c := .exist key) id) h1, fun x => mem_cons_of rfl h2⟩
  | case5 sch d p key k r ih =>
    obtain ⟨l, h1, h2⟩ := ih
    exact ⟨_, .step (two_step1 (c := .del key) id) h1, fun x => mem_cons_of rfl h2⟩
  | case6 b sch d p q _ _ _ _ _ ih => exact ih
  | case7 d p q => exact ⟨_, .done _, fun x => by rintro ⟨s, hs, rfl⟩; rw [List.mem_singleton] at hs; subst hs; simp [two]⟩

/-- The result of a client that has ended. -/
def outcome : Proc String α → Option (Except Err α)
  | .ret r => some r
  | .cmd _ _ => none
theorem outcome_eq {p : Proc String α} {r : Except Err α} (h : outcome p = some r) : p = .ret r := by
  cases p with
  | ret r' => cases h; rfl
  | cmd => cases h

/-- Objects of the store `sid`, as the server has them. -/
def stored (sid : String) (ms : List (Model String)) : Dict (Obj String) := ms.map fun m => (redisKey sid m.type m.uid, { m := m })

theorem stored_right {sid : String} {ms : List (Model String)} (hs : Plain sid) (hm : ∀ m ∈ ms, Plain m.type) : KeysRight (stored sid ms) := by
  intro key o h
  have := Dict.mem_of_get? h
  unfold stored at this
  rw [List.mem_map] at this
  obtain ⟨m, h1, h2⟩ := this
  cases h2
  exact ⟨sid, hs, hm m h1, rfl, rfl⟩

/-- Contents whose objects have classes that name each child type once, plainly. -/
def goodClasses (d : Dict (Obj String)) : Bool := d.all fun x => decide (Dict.keys x.2.m.cls.children).Nodup && (Dict.keys x.2.m.cls.children).all (fun ct => decide (Plain ct))
theorem goodClasses_iff {d : Dict (Obj String)} (h : goodClasses d = true) (key : String) (o : Obj String) (hg : Dict.get? d key = some o) :
    (Dict.keys o.m.cls.children).Nodup ∧ ∀ ct ∈ Dict.keys o.m.cls.children, Plain ct := by
  unfold goodClasses at h
  rw [List.all_eq_true] at h
  have := h _ (Dict.mem_of_get? hg)
  simpa using this

def srcX : Adapter String := adR 1 "x"
def dstY : Adapter String := { ad 2 with ref := ⟨2, .local 2⟩ }
def ctxXY : DiffCtx String := ⟨srcX, dstY, 0⟩
/-- The destination, in the memory of the process: the site `nyc` with the device `d1`. -/
def heldY : View String := .held (fun t => if t = "site" then [site "nyc" ["d1"]] else if t = "device" then [device "d1" "leaf" []] else [])
  (fun t u => if t = "site" ∧ u = "nyc" then some (site "nyc" ["d1"]) else if t = "device" ∧ u = "d1" then some (device "d1" "leaf" []) else none)
/-- The source, on the server: the sites `nyc` and `atl`, with the devices `d1` and `d2`. -/
def contX : Dict (Obj String) := stored "x" [site "nyc" ["d1", "d2"], site "atl" [], device "d1" "leaf" [], device "d2" "leaf" []]
def theDiff : Proc String (List (Elem String)) := qDiff ctxXY (.server srcX "x") heldY 5
/-- The other client adds the site `lax` and then makes `d1` a spine. -/
def writer : Proc String (List (Elem String)) :=
  .bind (pAdd "x" { m := site "lax" [] }) fun _ => .bind (pUpdate "x" { m := device "d1" "spine" [] }) fun _ => .ret (.ok [])
/-- The other client removes `d2`. -/
def remover : Proc String (List (Elem String)) := .bind (pRemoveItem "x" "device" "d2") fun _ => .ret (.ok [])

theorem Sends.imp {P Q : Cmd String → Prop} (h : ∀ c, P c → Q c) {p : Proc String α} (hp : Sends P p) : Sends Q p := by
  induction hp with
  | ret r => exact .ret r
  | cmd h1 _ ih => exact .cmd (h _ h1) ih
theorem theDiff_proper : Sends Cmd.Proper theDiff :=
  Sends.imp (fun c hc => by cases c <;> first | trivial | exact hc.elim) (C82_reads_only _ _ _ _)
theorem writer_proper : Sends Cmd.Proper writer := by
  have h := C65_methods_proper (V := String) srcX (sid := "x") (by decide)
  exact .bind (h.2.2.2.1 _ (by decide +kernel)) fun _ => .bind (h.2.2.2.2.1 _ (by decide +kernel)) fun _ => .ret _
theorem remover_proper : Sends Cmd.Proper remover :=
  .cmd trivial fun b _ => by cases b <;> first | exact .ret _ | exact .cmd trivial fun _ _ => .ret _

theorem contX_right : KeysRight contX := stored_right (by decide) (by decide +kernel)

/-- Contents whose objects have their children in the usual fields. -/
def usualFields (d : Dict (Obj String)) : Bool := d.all fun x => x.2.m.cls.children.all fun p => decide (p = ("device", "devices") ∨ p = ("interface", "interfaces"))

/-- The hypotheses of C82 hold when the contents have good classes. -/
theorem readable {l : List (Sys String (List (Elem String)))} {s' : Sys String (List (Elem String))} {q : Proc String (List (Elem String))}
    (he : Exec (two contX theDiff q) l s') (hq : Sends Cmd.Proper q) (hg : ∀ d, Moments l d → goodClasses d = true)
    (hf : ∀ d, Moments l d → usualFields d = true) :
    Readable ctxXY (.server srcX "x") heldY (Moments l) := by
  have hy : ∀ t u m, Seen heldY (Moments l) t u (some m) → m.type = t ∧ m.uid = u ∧ (m = site "nyc" ["d1"] ∨ m = device "d1" "leaf" []) := by
    rintro t u m ⟨d, _, hd⟩
    simp only [heldY, View.find] at hd
    split at hd
    · rename_i h; cases hd; obtain ⟨rfl, rfl⟩ := h; exact ⟨by decide +kernel, by decide +kernel, .inl rfl⟩
    · split at hd
      · rename_i h; cases hd; obtain ⟨rfl, rfl⟩ := h; exact ⟨by decide +kernel, by decide +kernel, .inr rfl⟩
      · cases hd
  refine ⟨C82_sound he (fun j => ?_) contX_right _ (by decide) (fun d hd key o => goodClasses_iff (hg d hd) key o), ⟨?_, ?_, ?_⟩, ?_, fun _ _ => trivial, ?_, ?_⟩
  · unfold two
    by_cases h0 : j = 0
    · simp only [h0, if_true]; exact theDiff_proper
    · by_cases h1 : j = 1
      · simp only [h1, if_true, if_neg (show (1 : Nat) ≠ 0 by decide)]; exact hq
      · simp only [if_neg h0, if_neg h1]; exact .ret _
  · refine ⟨fun t u m h => ?_, fun t m => ?_, fun t => ?_, fun t u m h => ?_⟩
    · exact ⟨(hy t u m ⟨_, ⟨_, he.first, rfl⟩, h⟩).1, (hy t u m ⟨_, ⟨_, he.first, rfl⟩, h⟩).2.1⟩
    · dsimp only
      by_cases h1 : t = "site"
      · subst h1
        simp only [if_true, List.mem_singleton, true_and, show ¬ ("site" = "device") by decide, false_and, if_false]
        constructor
        · rintro rfl; exact ⟨"nyc", by simp⟩
        · rintro ⟨u, hu⟩
          split at hu
          · exact (Option.some.inj hu).symm
          · cases hu
      · by_cases h2 : t = "device"
        · subst h2
          simp only [if_true, List.mem_singleton, true_and, show ¬ ("device" = "site") by decide, false_and, if_false]
          constructor
          · rintro rfl; exact ⟨"d1", by simp⟩
          · rintro ⟨u, hu⟩
            split at hu
            · exact (Option.some.inj hu).symm
            · cases hu
        · simp [h1, h2]
    · dsimp only
      split
      · simp
      · split <;> simp
    · rcases (hy t u m ⟨_, ⟨_, he.first, rfl⟩, h⟩).2.2 with rfl | rfl <;> decide +kernel
  · exact fun t u m _ h => ⟨(hy t u m h).1, (hy t u m h).2.1⟩
  · intro t u m _ h
    rcases (hy t u m h).2.2 with rfl | rfl
    · exact ⟨by decide +kernel, fun _ _ => trivial⟩
    · exact ⟨by decide +kernel, fun _ _ => trivial⟩
  · intro t ht
    have : t = "site" := by simpa [ctxXY, srcX, adR, ad] using ht
    subst this
    exact (by decide : Plain "site")
  · rintro t u s d ⟨x, hx, hs⟩ hd ct f f' h1 h2
    have hx2 := hf x hx
    unfold usualFields at hx2
    rw [List.all_eq_true] at hx2
    simp only [View.find] at hs
    cases ho : Dict.get? x (redisKey "x" t u) with
    | none => rw [ho] at hs; cases hs
    | some o =>
      rw [ho] at hs
      cases hs
      have h3 := hx2 _ (Dict.mem_of_get? ho)
      rw [List.all_eq_true] at h3
      have h4 := of_decide_eq_true (h3 _ (Dict.mem_of_get? h1))
      have h5 : (ct, f') = ("device", "devices") ∨ (ct, f') = ("interface", "interfaces") := by
        rcases (hy _ _ _ hd).2.2 with rfl | rfl
        · have := Dict.mem_of_get? h2
          simp [site, siteC] at this
          exact .inl (by rw [this.1, this.2])
        · have := Dict.mem_of_get? h2
          simp [device, deviceC] at this
          exact .inr (by rw [this.1, this.2])
      simp only [Prod.mk.injEq] at h4 h5
      rcases h4 with h4 | h4 <;> rcases h5 with h5 | h5 <;> first | exact h4.2.trans h5.2.symm | exact absurd (h4.1.symm.trans h5.1) (by decide)
  · decide +kernel

/-- The writer comes in after the source's sites were read. -/
def schedW : List Bool := [true, true, true, true, false, false, false, true, true, true, true]
def schedR : List Bool := [true, true, true, true, false, false, true, true]

/-- The role that attributes tell, or that there are none. -/
def role (a : Option (Dict String)) : String := match a with | none => "absent" | some d => (Dict.get? d "role").getD "none"
/-- What the diff says: the names of the sites, and their devices with the roles in source and destination. -/
def gist (es : List (Elem String)) : List (String × List String) :=
  es.map fun e => (e.name, e.kids.flatMap fun k => [k.name, role k.src, role k.dst])

/-- **C82** A diff may mix moments: here the other client adds the site `lax` and then changes `d1`; the diff knows of the change, but not of the site.  It is what
`diff_from` gives for none of the contents that the server had.  The hypotheses of `C82_diff` hold. -/
theorem C82_mixed : ∃ (l : List (Sys String (List (Elem String)))) (s' : Sys String (List (Elem String))) (es : List (Elem String)),
    Exec (two contX theDiff writer) l s' ∧ Readable ctxXY (.server srcX "x") heldY (Moments l) ∧ s'.cl 0 = .at (.ret (.ok es)) ∧
      gist es = [("nyc", ["d1", "spine", "leaf", "d2", "leaf", "absent"]), ("atl", [])] ∧
      ∀ d, Moments l d → (theDiff.run d).1 ≠ .ok es := by
  obtain ⟨l, h1, h2⟩ := drive_exec schedW contX theDiff writer
  have hr : ((outcome (drive schedW contX theDiff writer).2.2.1).map fun r => r.map gist) =
      some (.ok [("nyc", ["d1", "spine", "leaf", "d2", "leaf", "absent"]), ("atl", [])]) := by decide +kernel
  cases ho : outcome (drive schedW contX theDiff writer).2.2.1 with
  | none => rw [ho] at hr; cases hr
  | some r =>
    rw [ho] at hr
    cases r with
    | error e => cases hr
    | ok es =>
      simp only [Option.map_some, Except.map, Option.some.injEq, Except.ok.injEq] at hr
      have hc : (drive schedW contX theDiff writer).1.all (fun d => goodClasses d && usualFields d && decide (((theDiff.run d).1.map gist) ≠
          .ok [("nyc", ["d1", "spine", "leaf", "d2", "leaf", "absent"]), ("atl", [])])) = true := by decide +kernel
      rw [List.all_eq_true] at hc
      refine ⟨l, _, es, h1, readable h1 writer_proper (fun d hd => ?_) (fun d hd => ?_), ?_, hr, fun d hd he => ?_⟩
      · have := hc d (h2 d hd)
        simp only [Bool.and_eq_true] at this
        exact this.1.1
      · have := hc d (h2 d hd)
        simp only [Bool.and_eq_true] at this
        exact this.1.2
      · rw [outcome_eq ho]; rfl
      · have := hc d (h2 d hd)
        simp only [Bool.and_eq_true] at this
        refine of_decide_eq_true this.2 ?_
        rw [he]
        exact congrArg Except.ok hr

/-- **C82** A diff may raise `ObjectNotFound` although the child was there when the parent that lists it was read: another client removes `d2` meanwhile. -/
theorem C82_torn : ∃ (l : List (Sys String (List (Elem String)))) (s' : Sys String (List (Elem String))),
    Exec (two contX theDiff remover) l s' ∧ Readable ctxXY (.server srcX "x") heldY (Moments l) ∧ s'.cl 0 = .at (.ret (.error .objectNotFound)) ∧
      (theDiff.run contX).1.toOption.isSome = true := by
  obtain ⟨l, h1, h2⟩ := drive_exec schedR contX theDiff remover
  have hr : ((outcome (drive schedR contX theDiff remover).2.2.1).map fun r => r.map gist) = some (.error .objectNotFound) := by decide +kernel
  have hc : (drive schedR contX theDiff remover).1.all (fun d => goodClasses d && usualFields d) = true := by decide +kernel
  rw [List.all_eq_true] at hc
  refine ⟨l, _, h1, readable h1 remover_proper (fun d hd => ?_) (fun d hd => ?_), ?_, by decide +kernel⟩
  · have := hc d (h2 d hd)
    simp only [Bool.and_eq_true] at this
    exact this.1
  · have := hc d (h2 d hd)
    simp only [Bool.and_eq_true] at this
    exact this.2
  · cases ho : outcome (drive schedR contX theDiff remover).2.2.1 with
    | none => rw [ho] at hr; cases hr
    | some r =>
      rw [ho] at hr
      cases r with
      | ok es => cases hr
      | error e =>
        simp only [Option.map_some, Except.map, Option.some.injEq, Except.error.injEq] at hr
        subst hr
        rw [outcome_eq ho]
        rfl

/-- What the theorems say of these executions. -/
example : ∃ (l : List (Sys String (List (Elem String)))) (es : List (Elem String)), gist es ≠ [] ∧ ReportsTop ctxXY (.server srcX "x") heldY (Moments l) es := by
  obtain ⟨l, s', es, he, hR, hr, hg, _⟩ := C82_mixed
  exact ⟨l, es, by rw [hg]; decide, C82_diff (i := 0) he rfl hR hr⟩
example : ∃ l : List (Sys String (List (Elem String))), DiffTrouble ctxXY (.server srcX "x") heldY (Moments l) 5 .objectNotFound := by
  obtain ⟨l, s', he, hR, hr, _⟩ := C82_torn
  exact ⟨l, C82_raises (i := 0) he rfl hR hr⟩
/-- A diff whose stores nobody touches, while a client writes to a third one. -/
def elsewhere : Proc String (List (Elem String)) := .bind (pAdd "z" { m := site "lax" [] }) fun _ => .ret (.ok [])
example : ∃ (l : List (Sys String (List (Elem String)))) (s' : Sys String (List (Elem String))) (es : List (Elem String)),
    Exec (two contX theDiff elsewhere) l s' ∧ s'.cl 0 = .at (.ret (.ok es)) ∧ s'.srv.length = 5 ∧
      DescribesTop srcX dstY 0 ((View.server srcX "x").at contX) (heldY.at contX) es := by
  obtain ⟨l, h1, h2⟩ := drive_exec [true, true, false, true, false, true, true, true, true] contX theDiff elsewhere
  have hr : ((outcome (drive [true, true, false, true, false, true, true, true, true] contX theDiff elsewhere).2.2.1).map fun r => r.toOption.isSome) = some true := by decide +kernel
  have hc : (drive [true, true, false, true, false, true, true, true, true] contX theDiff elsewhere).1.all (fun d => goodClasses d && usualFields d) = true := by decide +kernel
  rw [List.all_eq_true] at hc
  have hz := C64_methods_stay_within (V := String) srcX (sid := "z") (by decide)
  have ha : Sends (Cmd.Within "z") elsewhere := .bind (hz.2.2.2.1 _) fun _ => .ret _
  have hp : Sends Cmd.Proper elsewhere := .bind ((C65_methods_proper (V := String) srcX (sid := "z") (by decide)).2.2.2.1 _ (by decide +kernel)) fun _ => .ret _
  have hR := readable h1 hp (fun d hd => by have := hc d (h2 d hd); simp only [Bool.and_eq_true] at this; exact this.1)
    (fun d hd => by have := hc d (h2 d hd); simp only [Bool.and_eq_true] at this; exact this.2)
  cases ho : outcome (drive [true, true, false, true, false, true, true, true, true] contX theDiff elsewhere).2.2.1 with
  | none => rw [ho] at hr; cases hr
  | some r =>
    rw [ho] at hr
    cases r with
    | error e => cases hr
    | ok es =>
      have hcl : (two (drive [true, true, false, true, false, true, true, true, true] contX theDiff elsewhere).2.1
        (drive [true, true, false, true, false, true, true, true, true] contX theDiff elsewhere).2.2.1
        (drive [true, true, false, true, false, true, true, true, true] contX theDiff elsewhere).2.2.2).cl 0 = .at (.ret (.ok es)) := by rw [outcome_eq ho]; rfl
      refine ⟨l, _, es, h1, hcl, by decide +kernel, ?_⟩
      refine (C82_undisturbed (i := 0) h1 rfl hR (C82_steady h1 (.server srcX "x") ?_) (C82_steady h1 heldY fun _ _ h => by cases h)).1 es hcl
      intro A sid hv j
      cases hv
      unfold two
      by_cases h0 : j = 0
      · simp only [h0, if_true]
        exact Sends.imp (fun c hc => by cases c <;> first | trivial | exact hc.elim) (C82_reads_only _ _ _ _)
      · by_cases h1 : j = 1
        · simp only [h1, if_true, if_neg (show (1 : Nat) ≠ 0 by decide)]
          exact ha.outside (by decide) (by decide) (by decide)
        · simp only [if_neg h0, if_neg h1]; exact .ret _

end DS.Ex
