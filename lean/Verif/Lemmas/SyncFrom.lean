import Verif.Spec.SyncFrom
import Verif.Props.SyncConc
import Verif.Props.DiffCmd
import Verif.Lemmas.SyncComputed
import Verif.Lemmas.ConvTree
import Verif.Props.SyncArgs
/-! # Clients whose replies come from the contents that the server has in the course of an execution -/
set_option linter.unusedSectionVars false

namespace DS
variable {V E α β : Type}

/-! ## Clients -/

/-- Replies that come from some moment (of a `SCAN`, from some moments). -/
def Cmd.From (H : Dict (Obj V) → Prop) : (c : Cmd V) → c.Reply → Prop
  | .scan pfx, ks => (∀ key, (∀ d, H d → Found d pfx key) → List.Mem key ks) ∧ ∀ key, List.Mem key ks → ∃ d, H d ∧ Found d pfx key
  | .get key, x => ∃ d, H d ∧ x = (Cmd.exec (.get key) d).1
  | .set key o, x => ∃ d, H d ∧ x = (Cmd.exec (.set key o) d).1
  | .exist key, x => ∃ d, H d ∧ x = (Cmd.exec (.exist key) d).1
  | .del key, x => ∃ d, H d ∧ x = (Cmd.exec (.del key) d).1

theorem Cmd.From.of_exec {H : Dict (Obj V) → Prop} {c : Cmd V} (hc : ¬ c.isScan) {d : Dict (Obj V)} (hd : H d) : c.From H (c.exec d).1 := by
  cases c with
  | scan => exact absurd trivial hc
  | _ => exact ⟨d, hd, rfl⟩

theorem Cmd.From.exec {H : Dict (Obj V) → Prop} {c : Cmd V} (hc : ¬ c.isScan) {x : c.Reply} (h : c.From H x) : ∃ d, H d ∧ x = (c.exec d).1 := by
  cases c with
  | scan => exact absurd trivial hc
  | _ => exact h

theorem Cmd.From.possible {H : Dict (Obj V) → Prop} {c : Cmd V} {x : c.Reply} (h : c.From H x) : c.Possible x := by
  cases c with
  | scan => exact fun key hk => (h.2 key hk).elim fun d hd => hd.2.2
  | _ => trivial

theorem Cmd.From.answer {H : Dict (Obj V) → Prop} {Q : String → Option (Obj V) → Prop} (hQ : ∀ d, H d → ∀ key, Q key (Dict.get? d key)) {c : Cmd V} {x : c.Reply} (h : c.From H x) :
    c.Answer Q x := by
  cases c with
  | scan => exact fun key hk => (h.2 key hk).elim fun d hd => hd.2.2
  | get key => obtain ⟨d, hd, rfl⟩ := h; exact hQ d hd key
  | _ => trivial

/-- A client all of whose commands satisfy `P`, and whose result satisfies `R`, when the replies come from the moments `H`. -/
inductive Told (H : Dict (Obj V) → Prop) (P : Cmd V → Prop) (R : α → Prop) : Proc V α → Prop
  | ret {r} (h : ∀ a, r = .ok a → R a) : Told H P R (.ret r)
  | cmd {c k} (h : P c) (hk : ∀ x, c.From H x → Told H P R (k x)) : Told H P R (.cmd c k)

section
variable {H : Dict (Obj V) → Prop} {P : Cmd V → Prop}

theorem Told.bind {R : α → Prop} {R' : β → Prop} {p : Proc V α} {f : α → Proc V β} (h : Told H P R p) (hf : ∀ a, R a → Told H P R' (f a)) : Told H P R' (p.bind f) := by
  induction h with
  | @ret r h =>
    cases r with
    | ok a => exact hf a (h a rfl)
    | error e => exact .ret fun a ha => by cases ha
  | cmd hc _ ih => exact .cmd hc fun x hx => ih x hx

theorem Told.weaken {R : α → Prop} {P' : Cmd V → Prop} {p : Proc V α} (h : Told H P R p) (hp : ∀ c, P c → P' c) : Told H P' R p := by
  induction h with
  | ret h => exact .ret h
  | cmd hc _ ih => exact .cmd (hp _ hc) fun x hx => ih x hx

theorem Talks.told {Q : String → Option (Obj V) → Prop} {R : α → Prop} {p : Proc V α} (h : Talks Q P R p) (hQ : ∀ d, H d → ∀ key, Q key (Dict.get? d key)) : Told H P R p := by
  induction h with
  | ret h => exact .ret h
  | cmd hc _ ih => exact .cmd hc fun x hx => ih x (hx.answer hQ)

/-- What a client can return from such replies. -/
theorem Sends.told {R : α → Prop} {p : Proc V α} (h : Sends P p) (hR : ∀ a, Can H p (.ok a) → R a) : Told H P R p := by
  induction h with
  | ret r => exact .ret fun a ha => hR a (ha ▸ .ret _)
  | @cmd c k hc _ ih =>
    refine .cmd hc fun x hx => ih x hx.possible fun a ha => hR a ?_
    by_cases hs : c.isScan
    · cases c with
      | scan pfx => exact .scan x hx.1 hx.2 ha
      | _ => exact hs.elim
    · obtain ⟨d, hd, rfl⟩ := hx.exec hs
      exact .cmd hs d hd ha

/-- Where such a client is. -/
def ToldAt (H : Dict (Obj V) → Prop) (P : Cmd V → Prop) : Stage V α → Prop
  | .at p => Told H P (fun _ => True) p
  | .scanning pfx must may k => ((∀ key, (∀ d, H d → Found d pfx key) → must key) ∧ ∀ key, may key → ∃ d, H d ∧ Found d pfx key) ∧ Told H P (fun _ => True) (.cmd (.scan pfx) k)

theorem ToldAt.see {x : Stage V α} (h : ToldAt H P x) {d : Dict (Obj V)} (hd : H d) : ToldAt H P (x.see d) := by
  cases x with
  | «at» p => exact h
  | scanning pfx must may k =>
    refine ⟨⟨fun key hk => ⟨h.1.1 key hk, hk d hd⟩, fun key hk => ?_⟩, h.2⟩
    rcases hk with hk | hk
    · exact h.1.2 key hk
    · exact ⟨d, hd, hk⟩

theorem ToldAt.of_all {x : Stage V α} (h : x.All (Sends P)) (hx : ∃ p, x = .at p) : ToldAt H P x := by
  obtain ⟨p, rfl⟩ := hx
  exact Sends.told h fun _ _ => trivial
end

/-- What such clients do to the server: nothing but what they are allowed. -/
theorem told_exec [PyVal V] {P : Nat → Cmd V → Prop} {s s' : Sys V α} {l : List (Sys V α)} (he : Exec s l s') (h : ∀ j, ToldAt (Moments l) (P j) (s.cl j)) :
    ∀ s1 ∈ l, (∀ key o, Dict.get? s1.srv key = some o → Dict.get? s.srv key = some o ∨ ∃ j, P j (.set key o)) ∧
      (∀ key o, Dict.get? s.srv key = some o → Dict.get? s1.srv key = some o ∨ (∃ j, P j (.del key)) ∨ ∃ j o', P j (.set key o')) ∧
      (∀ key o, Dict.get? s.srv key = some o → Dict.get? s1.srv key = none → ∃ j, P j (.del key)) := by
  refine effects_exec (I := fun j x => ToldAt (Moments l) (P j) x) (M := fun t => Moments l t.srv) (fun j s s1 hm hm1 hst h j' => ?_)
    (fun j c k hj => by cases hj with | cmd hw _ => exact hw) he (fun t ht => ⟨t, ht, rfl⟩) h
  have hj := h j
  cases hst with
  | cmd hc hs =>
    rw [hc] at hj
    dsimp only
    split
    · rename_i hjj
      subst hjj
      cases hj with
      | cmd _ hk => exact hk _ (.of_exec hs hm)
    · exact (h j').see hm1
  | scanBegins hc =>
    rw [hc] at hj
    dsimp only
    split
    · rename_i hjj; subst hjj; exact ⟨⟨fun key hk => hk _ hm, fun key hk => ⟨_, hm, hk⟩⟩, hj⟩
    · exact h j'
  | scanEnds hc ks h1 h2 =>
    rw [hc] at hj
    dsimp only
    split
    · rename_i hjj
      subst hjj
      obtain ⟨⟨a1, a2⟩, hj⟩ := hj
      cases hj with
      | cmd _ hk => exact hk _ ⟨fun key hf => h1 key (a1 key hf), fun key hk => a2 key (h2 key hk).1⟩
    · exact h j'

/-! ## `attempt` -/

theorem Sends.mono {P P' : Cmd V → Prop} (hP : ∀ c, P c → P' c) {p : Proc V α} (h : Sends P p) : Sends P' p := by
  induction h with
  | ret r => exact .ret _
  | cmd hc _ ih => exact .cmd (hP _ hc) fun x hx => ih x hx

theorem Sends.attempt {P : Cmd V → Prop} {p : Proc V α} (h : Sends P p) : Sends P p.attempt := by
  induction h with
  | ret r => exact .ret _
  | cmd hc _ ih => exact .cmd hc fun x hx => ih x hx

theorem Can.of_attempt {H : Dict (Obj V) → Prop} {p : Proc V α} {x : Except Err (Except Err α)} (h : Can H p.attempt x) : ∃ r, x = .ok r ∧ Can H p r := by
  induction p with
  | ret r => cases h with | ret => exact ⟨r, rfl, .ret _⟩
  | cmd c k ih =>
    generalize hq : (Proc.cmd c k).attempt = q at h
    cases h with
    | ret r => cases hq
    | cmd hc d hd h =>
      cases hq
      obtain ⟨r, h1, h2⟩ := ih _ h
      exact ⟨r, h1, .cmd hc d hd h2⟩
    | scan ks h1 h2 h =>
      cases hq
      obtain ⟨r, h3, h4⟩ := ih _ h
      exact ⟨r, h3, .scan ks h1 h2 h4⟩

theorem solo_attempt {p : Proc V α} {d d' : Dict (Obj V)} {x : Except Err (Except Err α)} (h : Solo (p.attempt, d) (.ret x, d')) : ∃ r, x = .ok r ∧ Solo (p, d) (.ret r, d') := by
  induction p generalizing d with
  | ret r => cases h with | done => exact ⟨r, rfl, .done _⟩
  | cmd c k ih =>
    generalize hq : (Proc.cmd c k).attempt = q at h
    cases h with
    | done => cases hq
    | cmd hc h =>
      cases hq
      obtain ⟨r, h1, h2⟩ := ih _ h
      exact ⟨r, h1, .cmd hc h2⟩
    | scan ks hk h =>
      cases hq
      obtain ⟨r, h3, h4⟩ := ih _ h
      exact ⟨r, h3, .scan ks hk h4⟩

theorem solo_bind_ret [PyVal V] {p : Proc V α} {k : α → Proc V β} {d d' : Dict (Obj V)} {r : Except Err β} (h : Solo (p.bind k, d) (.ret r, d')) :
    (∃ e, Solo (p, d) (.ret (.error e), d') ∧ r = .error e) ∨ ∃ a d1, Solo (p, d) (.ret (.ok a), d1) ∧ Solo (k a, d1) (.ret r, d') := by
  rcases solo_bind h with ⟨p', h1, h2⟩ | h
  · cases p' with
    | cmd c k => cases h2
    | ret r0 =>
      cases r0 with
      | error e => cases h2; exact .inl ⟨e, h1, rfl⟩
      | ok a => exact .inr ⟨a, d', h1, (h2 ▸ .done _ : Solo (k a, d') (.ret r, d'))⟩
  · exact .inr h

/-- A client that only reads, alone on the server. -/
theorem solo_can [PyVal V] {p : Proc V α} (hp : Sends Cmd.Reads p) {d d' : Dict (Obj V)} {r : Except Err α} (h : Solo (p, d) (.ret r, d')) : d' = d ∧ Can (fun x => x = d) p r := by
  induction hp generalizing d with
  | ret r => cases h with | done => exact ⟨rfl, .ret _⟩
  | @cmd c k hc _ ih =>
    cases h with
    | cmd hs h =>
      have hd : (c.exec d).2 = d := by cases c <;> first | rfl | exact hc.elim
      rw [hd] at h
      obtain ⟨h1, h2⟩ := ih _ (possible_exec hs _) h
      exact ⟨h1, .cmd hs d rfl h2⟩
    | scan ks hk h =>
      obtain ⟨h1, h2⟩ := ih ks (fun key hm => ((hk key).1 hm).2) h
      exact ⟨h1, .scan ks (fun key hf => (hk key).2 (hf d rfl)) (fun key hm => ⟨d, rfl, (hk key).1 hm⟩) h2⟩

/-! ## The places of the diff's elements -/
section
variable [PyVal V]

theorem WayTo.mono {has has' : String → String → Model V → Prop} (h : ∀ t u m, has t u m → has' t u m) {top : List String} {π : List Key} {m : Model V} (hw : WayTo has top π m) :
    WayTo has' top π m := by
  induction hw with
  | top h1 h2 => exact .top h1 (h _ _ _ h2)
  | step _ h1 h2 ih => exact .step ih h1 (h _ _ _ h2)

theorem WayTo.detTo {has has' : String → String → Model V → Prop} (hf : ∀ t u m m', has t u m → has' t u m' → m = m') {top : List String} {π : List Key} {m m' : Model V} (h : WayTo has top π m)
    (h' : WayTo has' top π m') : m = m' := by
  cases h with
  | top _ h1 =>
    cases h' with
    | top _ h2 => exact hf _ _ _ _ h1 h2
    | step hw _ _ => cases hw
  | step hw _ h1 =>
    cases h' with
    | top _ _ => cases hw
    | step _ _ h2 => exact hf _ _ _ _ h1 h2

theorem WayTo.has_last {has : String → String → Model V → Prop} {top : List String} {π : List Key} {t u : String} {m : Model V} (h : WayTo has top ((t, u) :: π) m) : has t u m := by
  cases h with
  | top _ h1 => exact h1
  | step _ _ h1 => exact h1

/-- A place of a diff with the way to it; `hs` and `hd` tell what the sides had there at some time, `ha` what the source had all the time. -/
structure OnWay (hs ha hd : String → String → Model V → Prop) (ts td : List String) (π : List Key) (p : Pos V) : Prop where
  head : ∃ ρ, π = (p.type, p.uid) :: ρ
  src : ∀ m, p.src = some m → WayTo hs ts π m
  src_none : p.src = none → ¬ ∃ m, WayTo ha ts π m
  dst : ∀ m, p.dst = some m → WayTo hd td π m
  some_side : p.src ≠ none ∨ p.dst ≠ none

variable {C : DiffCtx V} {vs vd : View V} {H : Dict (Obj V) → Prop}

theorem TopSeen.onWay {hs ha : String → String → Model V → Prop} (h1 : ∀ t u m, Seen vs H t u (some m) → hs t u m) (h2 : ∀ t u m o, ha t u m → Seen vs H t u o → o = some m) {c : Pos V} (h : TopSeen C vs vd H c) :
    OnWay hs ha (fun t u m => Seen vd H t u (some m)) C.src.topLevel C.dst.topLevel [(c.type, c.uid)] c := by
  refine ⟨⟨_, rfl⟩, fun m hm => .top h.src_top (h1 _ _ _ (hm ▸ h.src)), fun hn => ?_, fun m hm => .top h.dst_top (hm ▸ h.dst), h.some_side⟩
  rintro ⟨m, hw⟩
  cases hw with
  | top _ hm => cases h2 _ _ _ _ hm (hn ▸ h.src)
  | step hw _ _ => cases hw

theorem ChildSeen.onWay {hs ha : String → String → Model V → Prop} (h1 : ∀ t u m, Seen vs H t u (some m) → hs t u m) (hf : ∀ t u m m', hs t u m → ha t u m' → m = m')
    {ts td : List String} {π : List Key} {p c : Pos V} (hp : OnWay hs ha (fun t u m => Seen vd H t u (some m)) ts td π p) (h : ChildSeen vs vd H p c) :
    OnWay hs ha (fun t u m => Seen vd H t u (some m)) ts td ((c.type, c.uid) :: π) c := by
  refine ⟨⟨_, rfl⟩, fun m hm => ?_, fun hn => ?_, fun m hm => ?_, ?_⟩
  · obtain ⟨a, b⟩ := (hm ▸ h.src : SideSeen vs H p.src c.type c.uid (some m)).some
    cases hps : p.src with
    | none => rw [hps] at a; cases a
    | some q => rw [hps] at a; exact .step (hp.src q hps) a (h1 _ _ _ b)
  · rintro ⟨m, hw⟩
    cases hw with
    | top _ _ => obtain ⟨ρ, hρ⟩ := hp.head; cases hρ
    | step hw hl hm =>
      cases hps : p.src with
      | none => exact hp.src_none hps ⟨_, hw⟩
      | some q =>
        have := (hp.src q hps).detTo hf hw
        subst this
        exact h.src.listed.2 (by rw [hps]; exact hl) hn
  · obtain ⟨a, b⟩ := (hm ▸ h.dst : SideSeen vd H p.dst c.type c.uid (some m)).some
    cases hps : p.dst with
    | none => rw [hps] at a; cases a
    | some q => rw [hps] at a; exact .step (hp.dst q hps) a b
  · exact h.listed.imp h.src.listed.2 h.dst.listed.2

theorem Reports.hdr {e : Elem V} {p : Pos V} (h : Reports C vs vd H e p) : Header C.src C.dst e p := by
  cases h with
  | mk ps hh _ _ _ _ _ => exact hh

theorem Reports.onPath {hs ha : String → String → Model V → Prop} (h1 : ∀ t u m, Seen vs H t u (some m) → hs t u m) (hf : ∀ t u m m', hs t u m → ha t u m' → m = m')
    {ts td : List String} {e : Elem V} {p : Pos V} (h : Reports C vs vd H e p) {π : List Key} (hp : OnWay hs ha (fun t u m => Seen vd H t u (some m)) ts td π p) :
    ∀ x, InTree x e.kids → ∃ π q, Reports C vs vd H x q ∧ OnWay hs ha (fun t u m => Seen vd H t u (some m)) ts td π q := by
  induction h generalizing π with
  | @mk e p ps hh hd hc hl hlen hz ih =>
    intro x hx
    have step : ∀ y ∈ e.kids, ∃ q, (y, q) ∈ e.kids.zip ps ∧ OnWay hs ha (fun t u m => Seen vd H t u (some m)) ts td ((q.type, q.uid) :: π) q := by
      intro y hy
      obtain ⟨q, hq, hyq⟩ := zip_mem_left hlen hy
      exact ⟨q, hyq, (hc q hq).1.onWay h1 hf hp⟩
    cases hx with
    | here hx =>
      obtain ⟨q, hyq, hw⟩ := step x hx
      exact ⟨_, q, hz _ hyq, hw⟩
    | under hk hx =>
      obtain ⟨q, hyq, hw⟩ := step _ hk
      exact ih _ hyq hw x hx

theorem ReportsTop.onPath {hs ha : String → String → Model V → Prop} (h1 : ∀ t u m, Seen vs H t u (some m) → hs t u m) (h2 : ∀ t u m o, ha t u m → Seen vs H t u o → o = some m)
    (hf : ∀ t u m m', hs t u m → ha t u m' → m = m') {es : List (Elem V)} (h : ReportsTop C vs vd H es) :
    ∀ x, InTree x es → ∃ π q, Reports C vs vd H x q ∧ OnWay hs ha (fun t u m => Seen vd H t u (some m)) C.src.topLevel C.dst.topLevel π q := by
  obtain ⟨ps, hd, hc, hl, hlen, hz⟩ := h
  intro x hx
  cases hx with
  | here hx =>
    obtain ⟨q, hq, hyq⟩ := zip_mem_left hlen hx
    exact ⟨_, q, hz _ hyq, (hc q hq).1.onWay h1 h2⟩
  | under hk hx =>
    obtain ⟨q, hq, hyq⟩ := zip_mem_left hlen hk
    exact (hz _ hyq).onPath h1 hf ((hc q hq).1.onWay h1 h2) x hx

/-- Below a place that only the destination has there are only such places. -/
theorem Reports.delBelow {e : Elem V} {p : Pos V} (h : Reports C vs vd H e p) (hp : p.src = none) : ∀ x, InTree x e.kids → x.action = some .delete := by
  induction h with
  | @mk e p ps hh hd hc hl hlen hz ih =>
    intro x hx
    have step : ∀ y ∈ e.kids, ∃ q, (y, q) ∈ e.kids.zip ps ∧ q.src = none ∧ y.action = some .delete := by
      intro y hy
      obtain ⟨q, hq, hyq⟩ := zip_mem_left hlen hy
      have hch := (hc q hq).1
      have hn : q.src = none := by
        cases hqs : q.src with
        | none => rfl
        | some m =>
          have := hch.src.listed.1 (by rw [hqs]; exact fun h => by cases h)
          rw [hp] at this; cases this
      refine ⟨q, hyq, hn, ?_⟩
      rw [action_delete_iff, (hz _ hyq).hdr.src_eq, (hz _ hyq).hdr.dst_eq, hn]
      refine ⟨rfl, ?_⟩
      rcases hch.listed with h | h
      · rw [hp] at h; cases h
      · have := hch.dst.listed.2 h
        simpa using this
    cases hx with
    | here hx => exact (step x hx).choose_spec.2.2
    | under hk hx =>
      obtain ⟨q, h1, h2, h3⟩ := step _ hk
      exact ih _ h1 h2 x hx

theorem Reports.src_none {e : Elem V} {p : Pos V} (h : Reports C vs vd H e p) (ha : e.action = some .delete) : p.src = none ∧ ∃ m, p.dst = some m ∧ e.keys = m.identifiers := by
  obtain ⟨h1, h2⟩ := (action_delete_iff e).1 ha
  rw [h.hdr.src_eq] at h1
  rw [h.hdr.dst_eq] at h2
  have h1 : p.src = none := by simpa using h1
  cases hm : p.dst with
  | none => rw [hm] at h2; exact absurd rfl h2
  | some m => exact ⟨h1, m, rfl, (h.hdr.name_eq m (by rw [h1, hm]; rfl)).2⟩

theorem Reports.creates {e : Elem V} {p : Pos V} (h : Reports C vs vd H e p) (ha : e.action = some .create) :
    ∃ m, p.src = some m ∧ e.keys = m.identifiers ∧ ∀ k, Dict.get? (e.plus.getD []) k = Dict.get? m.attrs k := by
  obtain ⟨h1, h2⟩ := (action_create_iff e).1 ha
  cases hm : p.src with
  | none => rw [h.hdr.src_eq, hm] at h1; exact absurd rfl h1
  | some m =>
    refine ⟨m, rfl, (h.hdr.name_eq m (by rw [hm]; rfl)).2, fun k => plus_create ?_ h2 k⟩
    rw [h.hdr.src_eq, hm]; rfl

theorem ReportsTop.delBelow {es : List (Elem V)} (h : ReportsTop C vs vd H es) : DelClosed es := by
  intro e he ha
  have : ∃ q, Reports C vs vd H e q := by
    obtain ⟨ps, hd, hc, hl, hlen, hz⟩ := h
    have go : ∀ {k : Elem V} {q : Pos V}, Reports C vs vd H k q → ∀ x, InTree x k.kids → ∃ q, Reports C vs vd H x q := by
      intro k q hk
      induction hk with
      | @mk e p ps hh hd hc hl hlen hz ih =>
        intro x hx
        cases hx with
        | here hx => obtain ⟨q, hq, hyq⟩ := zip_mem_left hlen hx; exact ⟨q, hz _ hyq⟩
        | under hk hx => obtain ⟨q, hq, hyq⟩ := zip_mem_left hlen hk; exact ih _ hyq x hx
    cases he with
    | here hx => obtain ⟨q, hq, hyq⟩ := zip_mem_left hlen hx; exact ⟨q, hz _ hyq⟩
    | under hk hx => obtain ⟨q, hq, hyq⟩ := zip_mem_left hlen hk; exact go (hz _ hyq) _ hx
  obtain ⟨q, hq⟩ := this
  exact hq.delBelow (hq.src_none ha).1

end
end DS
