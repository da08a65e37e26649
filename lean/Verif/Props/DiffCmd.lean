import Verif.Lemmas.DiffCmd
import Verif.Props.RedisSeq
/-! # C82: a diff that is computed while other clients write to the stores -/
set_option linter.unusedSectionVars false

namespace DS
variable {V E α β : Type} [PyVal V]

/-- **C82** Whatever the other clients do, and in whatever order the server takes the commands: the elements of the diff report, one for one, distinct places at the
top; each side of a place is what was stored there at some moment of the diff (nothing, if nothing was), the places below are those that these objects list, with
objects that were stored there at some moment, and so on down; nothing that the flags leave in is missing that was there all the time, or that an object listed. -/
theorem C82_diff {i : Nat} {s s' : Sys V (List (Elem V))} {l : List (Sys V (List (Elem V)))} (he : Exec s l s') {C : DiffCtx V} {vs vd : View V} {n : Nat}
    (h : s.cl i = .at (qDiff C vs vd n)) (hR : Readable C vs vd (Moments l)) {es : List (Elem V)} (hr : s'.cl i = .at (.ret (.ok es))) :
    ReportsTop C vs vd (Moments l) es :=
  (exec_can he h hr).diff_ok ⟨_, s, he.first, rfl⟩ hR

/-- **C82** And it raises only for a reason: `ObjectNotFound` because an object was there at one moment and not at another, or because an object that was read listed a
child that was missing at some moment; the other exceptions for the reasons that a diff has on its own, found in objects that were stored at some moment. -/
theorem C82_raises {i : Nat} {s s' : Sys V (List (Elem V))} {l : List (Sys V (List (Elem V)))} (he : Exec s l s') {C : DiffCtx V} {vs vd : View V} {n : Nat}
    (h : s.cl i = .at (qDiff C vs vd n)) (hR : Readable C vs vd (Moments l)) {e : Err} (hr : s'.cl i = .at (.ret (.error e))) :
    DiffTrouble C vs vd (Moments l) n e :=
  (exec_can he h hr).diff_error ⟨_, s, he.first, rfl⟩ hR

/-! ## The diff reads only -/

/-- Commands that only read. -/
def Cmd.Reads : Cmd V → Prop
  | .set _ _ | .del _ => False
  | _ => True

/-- The commands that reading an adapter takes. -/
def View.Asks (P : Cmd V → Prop) (T : String → Prop) : View V → Prop
  | .held _ _ => True
  | .server _ sid => (∀ t u, P (.get (redisKey sid t u))) ∧ P (.scan (storeLabel sid ++ ":")) ∧
      ∀ t, T t → P (.scan (storeLabel sid ++ (":" ++ (t ++ ":")))) ∧ ∀ key, globMatch (storeLabel sid ++ (":" ++ (t ++ ":")) ++ "*") key = true → P (.get key)

theorem Sends.viewAll {P : Cmd V → Prop} {T : String → Prop} (v : View V) (hP : v.Asks P T) (t : String) (ht : T t) : Sends P (v.all t) := by
  cases v with
  | held => exact .ret _
  | server A sid => exact .bind (.cmd (hP.2.2 t ht).1 fun ks hk => .mapEach fun key h => .load ((hP.2.2 t ht).2 key (hk key h))) fun _ => .ret _
theorem Sends.viewByUids {P : Cmd V → Prop} {T : String → Prop} (v : View V) (hP : v.Asks P T) (us : List String) (t : String) : Sends P (v.byUids us t) := by
  cases v with
  | held all find =>
    refine .mapEach fun u _ => ?_
    cases find t u <;> exact .ret _
  | server A sid => exact .bind (.getByUids fun _ _ => hP.1 _ _) fun _ => .ret _
theorem Sends.viewLen {P : Cmd V → Prop} {T : String → Prop} (v : View V) (hP : v.Asks P T) : Sends P v.len := by
  cases v with
  | held => exact .ret _
  | server A sid => exact .bind (.cmd hP.2.1 fun _ _ => .ret _) fun _ => .ret _
theorem Sends.qChildModels {P : Cmd V → Prop} {T : String → Prop} (v : View V) (hP : v.Asks P T) (o : Option (Model V)) (ct f : String) : Sends P (qChildModels v o ct f) := by
  unfold DS.qChildModels
  cases o with
  | none => exact .ret _
  | some m =>
    dsimp only
    cases m.kidList f with
    | none => exact .ret _
    | some us => exact .viewByUids v hP us ct
theorem Sends.qChildLoop {P : Cmd V → Prop} {T T' : String → Prop} (vs vd : View V) (hs : vs.Asks P T) (hd : vd.Asks P T') {rec : List (Model V) → List (Model V) → Proc V (List (Elem V))}
    (hrec : ∀ a b, Sends P (rec a b)) (s d : Option (Model V)) (mapping : Dict String) (kids : List (Elem V)) : Sends P (qChildLoop vs vd rec s d mapping kids) := by
  induction mapping generalizing kids with
  | nil => exact .ret _
  | cons x rest ih =>
    exact .bind (.qChildModels _ hs _ _ _) fun _ => .bind (.qChildModels _ hd _ _ _) fun _ => .bind (hrec _ _) fun _ => .bind (.ret _) fun _ => ih _
theorem Sends.qPair {P : Cmd V → Prop} {T T' : String → Prop} (C : DiffCtx V) (vs vd : View V) (hs : vs.Asks P T) (hd : vd.Asks P T') {rec : List (Model V) → List (Model V) → Proc V (List (Elem V))}
    (hrec : ∀ a b, Sends P (rec a b)) (s d : Option (Model V)) : Sends P (qPair C vs vd rec s d) := by
  unfold DS.qPair
  cases s.or d with
  | none => exact .ret _
  | some m =>
    dsimp only
    split
    · exact .ret _
    · exact .bind (.ret _) fun _ => .bind (.qChildLoop vs vd hs hd hrec _ _ _ _) fun _ => .ret _
theorem Sends.qPairs {P : Cmd V → Prop} {f : Option (Model V) → Option (Model V) → Proc V (Option (Elem V))} (hf : ∀ a b, Sends P (f a b))
    (l : List (Option (Model V) × Option (Model V))) : Sends P (qPairs f l) := by
  induction l with
  | nil => exact .ret _
  | cons x l ih => exact .bind (hf _ _) fun _ => .bind ih fun _ => .ret _
theorem Sends.qList {P : Cmd V → Prop} {T T' : String → Prop} (C : DiffCtx V) (vs vd : View V) (hs : vs.Asks P T) (hd : vd.Asks P T') (n : Nat) (a b : List (Model V)) : Sends P (qList C vs vd n a b) := by
  induction n generalizing a b with
  | zero => exact .ret _
  | succ n ih => exact .bind (.ret _) fun _ => .qPairs (.qPair C vs vd hs hd ih) _
theorem Sends.qTypes {P : Cmd V → Prop} {T T' : String → Prop} (C : DiffCtx V) (vs vd : View V) (hs : vs.Asks P T) (hd : vd.Asks P T') (n : Nat) (ts : List String) (ht : ∀ t ∈ ts, T t ∧ T' t) (kids : List (Elem V)) :
    Sends P (qTypes C vs vd n ts kids) := by
  induction ts generalizing kids with
  | nil => exact .ret _
  | cons t ts ih => exact .bind (.viewAll _ hs _ (ht t (by simp)).1) fun _ => .bind (.viewAll _ hd _ (ht t (by simp)).2) fun _ => .bind (.qList _ _ _ hs hd _ _ _) fun _ => .bind (.ret _) fun _ => ih (fun t' h => ht t' (by simp [h])) _

theorem Sends.qDiff {P : Cmd V → Prop} {T T' : String → Prop} (C : DiffCtx V) (vs vd : View V) (hs : vs.Asks P T) (hd : vd.Asks P T') (h1 : ∀ t ∈ C.src.topLevel, T t) (h2 : ∀ t ∈ C.dst.topLevel, T' t)
    (n : Nat) : Sends P (qDiff C vs vd n) := by
  refine .bind (.viewLen _ hs) fun _ => .bind (.viewLen _ hd) fun _ => .bind (.forEach fun t _ => ?_) fun _ => .qTypes _ _ _ hs hd _ _ (fun t ht => ?_) _
  · unfold qSkipped
    split
    · rename_i h; exact .bind (.viewAll _ hd _ (h2 t (by simpa using h))) fun _ => .ret _
    · split
      · rename_i h; exact .bind (.viewAll _ hs _ (h1 t (by simpa using h))) fun _ => .ret _
      · exact .ret _
  · obtain ⟨a, b⟩ := mem_intersection.1 ht
    exact ⟨h1 t b, h2 t a⟩

/-- **C82** A diff sends no command that writes, whatever the server answers: it disturbs no other client. -/
theorem C82_reads_only (C : DiffCtx V) (vs vd : View V) (n : Nat) : Sends Cmd.Reads (qDiff C vs vd n) := by
  have h : ∀ v : View V, v.Asks Cmd.Reads fun _ => True := fun v => by
    cases v with
    | held => trivial
    | server => exact ⟨fun _ _ => trivial, trivial, fun _ _ => ⟨trivial, fun _ _ => trivial⟩⟩
  exact .qDiff C vs vd (h vs) (h vd) (fun _ _ => trivial) (fun _ _ => trivial) n

/-! ## Where the keys come from -/

/-- **C82** If the clients store objects under their own type and unique id only, as the methods of the store do, then this is what is found at every moment. -/
theorem C82_sound {s s' : Sys V α} {l : List (Sys V α)} (he : Exec s l s') (hp : ∀ j, (s.cl j).All (Sends Cmd.Proper)) (hk : KeysRight s.srv) (A : Adapter V) {sid : String}
    (hs : Plain sid) (hc : ∀ d, Moments l d → ∀ key o, Dict.get? d key = some o → (Dict.keys o.m.cls.children).Nodup ∧ ∀ ct ∈ Dict.keys o.m.cls.children, Plain ct) :
    (View.server A sid).Sound (Moments l) := by
  refine ⟨hs, ?_, ?_⟩
  · rintro t u m ht ⟨d, ⟨s1, hs1, rfl⟩, hf⟩
    simp only [View.find] at hf
    cases hg : Dict.get? s1.srv (redisKey sid t u) with
    | none => rw [hg] at hf; cases hf
    | some o =>
      rw [hg] at hf
      cases hf
      obtain ⟨sid', h1, h2, h3, _⟩ := C65_keys_right he hp hk s1 hs1 _ _ hg
      obtain ⟨_, h4, h5⟩ := redisKey_inj hs h1 ht h2 h3
      exact ⟨h4.symm, h5.symm⟩
  · rintro t u m ht ⟨d, hd, hf⟩
    simp only [View.find] at hf
    cases hg : Dict.get? d (redisKey sid t u) with
    | none => rw [hg] at hf; cases hf
    | some o =>
      rw [hg] at hf
      cases hf
      exact hc d hd _ _ hg

/-! ## Stores that stay as they are -/

/-- Nobody changes what is found in the adapter. -/
def KeepsAll (v : View V) (H : Dict (Obj V) → Prop) (S : Snap V) : Prop := ∀ d, H d → ∀ t u, v.find d t u = S.find t u

section
variable {H : Dict (Obj V) → Prop} {C : DiffCtx V} {vs vd : View V} {S D : Snap V}

theorem KeepsAll.seen {v : View V} (h : KeepsAll v H S) {t u : String} {o : Option (Model V)} (ho : Seen v H t u o) : o = S.find t u := by
  obtain ⟨d, hd, rfl⟩ := ho
  exact h d hd t u

theorem KeepsAll.side {v : View V} (h : KeepsAll v H S) {a : Option (Model V)} {t u : String} {o : Option (Model V)} (ho : SideSeen v H a t u o) :
    o = if listsO a t u then S.find t u else none := by
  unfold SideSeen at ho
  split at ho
  · rename_i hl
    rw [if_pos hl]
    exact h.seen ho.2
  · rename_i hl
    rw [if_neg hl]
    exact ho

theorem ChildSeen.isChild (hs : KeepsAll vs H S) (hd : KeepsAll vd H D) {p c : Pos V} (h : ChildSeen vs vd H p c) : IsChild S D p c :=
  ⟨h.compared, h.listed, hs.side h.src, hd.side h.dst⟩

theorem Pos.ext' {a b : Pos V} (h1 : a.type = b.type) (h2 : a.uid = b.uid) (h3 : a.src = b.src) (h4 : a.dst = b.dst) : a = b := by
  cases a; cases b; simp_all

theorem Reports.describes (hs : KeepsAll vs H S) (hd : KeepsAll vd H D) {e : Elem V} {p : Pos V} (h : Reports C vs vd H e p) :
    Describes C.src C.dst C.flags S D e p := by
  induction h with
  | mk ps h1 h2 h3 h4 h5 _ ih =>
    refine .mk ps h1 h2 (fun c => ⟨fun hc => ⟨(h3 c hc).1.isChild hs hd, (h3 c hc).2⟩, ?_⟩) h5 ih
    rintro ⟨hc, hv⟩
    obtain ⟨c', e1, e2, hc', hm⟩ := h4 c.type c.uid hc.compared hc.listed
    have hi := hc'.isChild hs hd
    have : c' = c := Pos.ext' e1 e2 (by rw [hi.src_eq, hc.src_eq, e1, e2]) (by rw [hi.dst_eq, hc.dst_eq, e1, e2])
    subst this
    exact hm.resolve_right hv

theorem ReportsTop.describes (hs : KeepsAll vs H S) (hd : KeepsAll vd H D) {es : List (Elem V)} (h : ReportsTop C vs vd H es) :
    DescribesTop C.src C.dst C.flags S D es := by
  obtain ⟨ps, h1, h2, h3, h4, h5⟩ := h
  have top : ∀ c, TopSeen C vs vd H c → IsTop C.src C.dst S D c := fun c hc => ⟨hc.src_top, hc.dst_top, hs.seen hc.src, hd.seen hc.dst, hc.some_side⟩
  refine ⟨ps, h1, fun c => ⟨fun hc => ⟨top c (h2 c hc).1, (h2 c hc).2⟩, ?_⟩, h4, fun x hx => (h5 x hx).describes hs hd⟩
  rintro ⟨hc, hv⟩
  obtain ⟨c', e1, e2, hc', hm⟩ := h3 c.type c.uid hc.src_top hc.dst_top (hc.some_side.imp
    (fun hn hx => hn (by rw [hc.src_eq]; exact (hs.seen hx).symm)) (fun hn hx => hn (by rw [hc.dst_eq]; exact (hd.seen hx).symm)))
  have hi := top c' hc'
  have : c' = c := Pos.ext' e1 e2 (by rw [hi.src_eq, hc.src_eq, e1, e2]) (by rw [hi.dst_eq, hc.dst_eq, e1, e2])
  subst this
  exact hm.resolve_right hv

theorem Met.comparedAt (hs : KeepsAll vs H S) (hd : KeepsAll vd H D) {k : Nat} {p : Pos V} (h : Met C vs vd H k p) : ComparedAt C.src C.dst C.flags S D k p := by
  induction h with
  | top hc => exact .top ⟨hc.src_top, hc.dst_top, hs.seen hc.src, hd.seen hc.dst, hc.some_side⟩
  | child _ hv hc ih => exact .child ih hv (hc.isChild hs hd)

theorem Met.some_side {k : Nat} {p : Pos V} (h : Met C vs vd H k p) : p.src ≠ none ∨ p.dst ≠ none := by
  cases h with
  | top hc => exact hc.some_side
  | child _ _ hc => exact hc.listed.imp hc.src.listed.2 hc.dst.listed.2

theorem DiffTrouble.problem (hs : KeepsAll vs H S) (hd : KeepsAll vd H D) {N : Nat} {e : Err} (h : DiffTrouble C vs vd H N e) : DiffProblem C.src C.dst C.flags S D N e := by
  have steady : ∀ {v : View V} {X : Snap V}, KeepsAll v H X → ∀ {t u}, ¬ Unsteady v H t u := fun hv t u ⟨⟨m, h1⟩, h2⟩ => by
    have := hv.seen h1
    rw [← hv.seen h2] at this
    cases this
  cases e with
  | objectNotFound =>
    rcases h with ⟨t, u, ⟨_, h⟩ | ⟨_, h⟩⟩ | ⟨k, p, ct, u, h1, h2, h3, h4⟩
    · exact absurd h (steady hs)
    · exact absurd h (steady hd)
    · exact ⟨p, (h1.comparedAt hs hd).compared, h2, ct, u, h3, h4.imp (fun h => ⟨h.1, (hs.seen h.2).symm⟩) (fun h => ⟨h.1, (hd.seen h.2).symm⟩)⟩
  | valueError =>
    obtain ⟨k, p, h1, h2⟩ := h
    exact ⟨p, (h1.comparedAt hs hd).compared, h2⟩
  | objectAlreadyExists =>
    obtain ⟨c, c', h1, h2, h3, h4⟩ := h
    refine ⟨c, c', h1, h2, h3, ?_⟩
    rcases h4 with ⟨hc, hc'⟩ | ⟨k, p, h4, h5, h6, h7⟩
    · exact .inl ⟨⟨hc.src_top, hc.dst_top, hs.seen hc.src, hd.seen hc.dst, hc.some_side⟩, ⟨hc'.src_top, hc'.dst_top, hs.seen hc'.src, hd.seen hc'.dst, hc'.some_side⟩⟩
    · exact .inr ⟨p, (h4.comparedAt hs hd).compared, h5, h6.isChild hs hd, h7.isChild hs hd⟩
  | attributeError =>
    obtain ⟨k, p, h1, h2, h3⟩ := h
    exact ⟨p, (h1.comparedAt hs hd).compared, h2, h3⟩
  | recursionError =>
    rcases h with h | ⟨k, p, h1, h2, h3, ct, h4⟩
    · exact .inl h
    · exact .inr ⟨k, p, h1, h2.comparedAt hs hd, h3, h2.some_side, ct, h4⟩
  | _ => exact h.elim

end

/-- **C82** If the two adapters hold the same all the time, then the diff describes what they hold, whatever else happens on the server. -/
theorem C82_undisturbed {i : Nat} {s s' : Sys V (List (Elem V))} {l : List (Sys V (List (Elem V)))} (he : Exec s l s') {C : DiffCtx V} {vs vd : View V} {n : Nat}
    (h : s.cl i = .at (qDiff C vs vd n)) (hR : Readable C vs vd (Moments l)) {S D : Snap V} (hs : KeepsAll vs (Moments l) S) (hd : KeepsAll vd (Moments l) D) :
    (∀ es, s'.cl i = .at (.ret (.ok es)) → DescribesTop C.src C.dst C.flags S D es) ∧
      ∀ e, s'.cl i = .at (.ret (.error e)) → DiffProblem C.src C.dst C.flags S D n e :=
  ⟨fun _ hr => (C82_diff he h hR hr).describes hs hd, fun _ hr => (C82_raises he h hR hr).problem hs hd⟩

/-! ## A diff that is alone on the server -/

/-- The contents that a view gives. -/
def View.at (v : View V) (d : Dict (Obj V)) : Snap V :=
  match v with
  | .held all find => ⟨all, find⟩
  | .server _ sid =>
    { all := fun t => (scanKeys d (storeLabel sid ++ (":" ++ (t ++ ":")))).filterMap (fun k => (Dict.get? d k).map Obj.m)
      find := fun t u => (Dict.get? d (redisKey sid t u)).map Obj.m }

theorem View.at_of (A : Adapter V) (w : World V E) : (View.of A w).at w.redis = rawSnap A w := by
  unfold View.of rawSnap snap
  cases h : A.ref.store <;> simp only [h] <;> rfl

theorem outside_steps {sid : String} {s s' : Sys V α} {l : List (Sys V α)} (he : Exec s l s') (hp : ∀ j, (s.cl j).All (Sends (Cmd.Outside sid))) {d : Dict (Obj V)}
    (h : SameOn (OfStore sid) s.srv d) : ∀ s1 ∈ l, SameOn (OfStore sid) s1.srv d := by
  induction he with
  | done s => intro s1 hs1; rw [List.mem_singleton] at hs1; subst hs1; exact h
  | @step j s s1 s' l hst _ ih =>
    intro s2 hs2
    rw [List.mem_cons] at hs2
    rcases hs2 with rfl | hs2
    · exact h
    · have hj := hp j
      refine ih (fun j' => ?_) ?_ s2 hs2
      · cases hst with
        | cmd hc hs =>
          rw [hc] at hj
          dsimp only
          split
          · cases hj with
            | cmd _ hk => exact hk _ (possible_exec hs _)
          · exact (hp j').see _
        | scanBegins hc =>
          rw [hc] at hj
          dsimp only
          split
          · exact hj
          · exact hp j'
        | scanEnds hc ks h1 h2 =>
          rw [hc] at hj
          dsimp only
          split
          · cases hj with
            | cmd _ hk => exact hk _ (fun x hx => (h2 x hx).2)
          · exact hp j'
      · cases hst with
        | cmd hc hs =>
          rw [hc] at hj
          cases hj with
          | cmd hw _ => exact h.outside hw
        | scanBegins => exact h
        | scanEnds => exact h

/-- **C82** An adapter keeps its contents when no client writes to its store, whatever they do to other stores; and one in local memory does so anyway. -/
theorem C82_steady {s s' : Sys V α} {l : List (Sys V α)} (he : Exec s l s') (v : View V)
    (hp : ∀ A sid, v = .server A sid → ∀ j, (s.cl j).All (Sends (Cmd.Outside sid))) : KeepsAll v (Moments l) (v.at s.srv) := by
  rintro d ⟨s1, hs1, rfl⟩ t u
  cases v with
  | held => rfl
  | server A sid =>
    have := outside_steps he (hp A sid rfl) (fun _ _ => rfl) s1 hs1 (redisKey sid t u) (ofStore_key _ _ _)
    simp only [View.find, View.at, this]

/-- Alone, the client does what `q` says, and leaves the server as it is. -/
def Runs (d : Dict (Obj V)) (p : Proc V α) (q : P α) : Prop := p.run d = (match q with | .ok (a, _) => .ok a | .error e => .error e, d)

section
variable {d : Dict (Obj V)} {C : DiffCtx V} {vs vd : View V}

theorem Runs.ret (a : α) : Runs d (.ret (.ok a)) (P.ret a) := rfl
theorem Runs.err (e : Err) : Runs d (.ret (.error e) : Proc V α) (P.err e) := rfl
theorem Runs.lift (r : Except Err α) : Runs d (.ret r) (P.lift r) := by cases r <;> rfl

theorem Runs.bind {p : Proc V α} {q : P α} (h : Runs d p q) {k : α → Proc V β} {f : α → P β} (hk : ∀ a, Runs d (k a) (f a)) : Runs d (p.bind k) (P.bind q f) := by
  unfold Runs at *
  rw [Proc.run_bind, h]
  cases q with
  | error e => rfl
  | ok x =>
    obtain ⟨a, j⟩ := x
    simp only [hk a, P.bind]
    cases f a with
    | error e => rfl
    | ok y => obtain ⟨b, j'⟩ := y; rfl

/-- A step that only counts. -/
theorem Runs.tick {p : Proc V β} {f : Unit → P β} (j : Nat) (h : Runs d p (f ())) : Runs d p (P.bind (P.tick j) f) := by
  unfold Runs at *
  rw [h]
  simp only [P.bind, P.tick]
  cases f () with
  | error e => rfl
  | ok y => obtain ⟨b, j'⟩ := y; rfl

theorem Runs.ticks {γ : Type} {p : Proc V β} {f : Unit → P β} (g : γ → P Unit) (hg : ∀ x, ∃ j, g x = .ok ((), j)) (l : List γ) (h : Runs d p (f ())) :
    Runs d p (P.bind (P.forEach g l) f) := by
  have : ∃ j, P.forEach g l = .ok ((), j) := by
    induction l with
    | nil => exact ⟨0, rfl⟩
    | cons x l ih =>
      obtain ⟨j, hj⟩ := ih
      obtain ⟨j', hj'⟩ := hg x
      exact ⟨j' + j, by simp only [P.forEach, P.bind, hj, hj']⟩
  obtain ⟨j, hj⟩ := this
  rw [hj]
  exact Runs.tick j h

theorem run_loads (A : Adapter V) (ks : List String) (h : ∀ k ∈ ks, k ∈ Dict.keys d) :
    (Proc.mapEach (pLoad A) ks).run d = (.ok (ks.filterMap fun k => (Dict.get? d k).map fun o => { o with adapter := some A.ref }), d) := by
  induction ks with
  | nil => rfl
  | cons k ks ih =>
    obtain ⟨o, ho⟩ := Dict.mem_keys_iff.1 (h k (by simp))
    unfold Proc.mapEach
    rw [Proc.run_bind]
    have h1 : (pLoad A k).run d = (.ok { o with adapter := some A.ref }, d) := by
      simp only [pLoad, Proc.run, Cmd.exec, ho]
    rw [h1]
    simp only
    rw [Proc.run_bind, ih (fun k' hk' => h k' (by simp [hk']))]
    simp [Proc.run, ho]

theorem Runs.all (v : View V) (t : String) : Runs d (v.all t) (P.ret ((v.at d).all t)) := by
  cases v with
  | held => rfl
  | server A sid =>
    unfold Runs View.all pGetAll
    simp only [Proc.bind, Proc.run, Cmd.exec]
    rw [Proc.run_bind, run_loads A (scanKeys d _) (fun k hk => by unfold scanKeys at hk; exact (List.mem_filter.1 hk).1)]
    simp only [Proc.run, P.ret, View.at, List.map_filterMap, Option.map_map]
    rfl

theorem Runs.byUids (v : View V) (us : List String) (t : String) : Runs d (v.byUids us t) (P.lift (lookupAll (v.at d) t us)) := by
  cases v with
  | held all find =>
    unfold View.byUids
    induction us with
    | nil => rfl
    | cons u us ih =>
      unfold Runs at *
      unfold Proc.mapEach lookupAll
      have hf : ((View.held all find).at d).find t u = find t u := rfl
      rw [Proc.run_bind, hf]
      cases find t u with
      | none => rfl
      | some m =>
        simp only [Proc.run]
        rw [Proc.run_bind, ih]
        cases lookupAll ((View.held all find).at d) t us <;> rfl
  | server A sid =>
    unfold View.byUids pGetByUids pGet
    have key : (Proc.mapEach (fun u => pLoad A (redisKey sid t u)) us).run d =
        (match lookupAll ((View.server A sid).at d) t us with
          | .ok _ => .ok (us.filterMap fun u => (Dict.get? d (redisKey sid t u)).map fun o => { o with adapter := some A.ref })
          | .error e => .error e, d) ∧ ∀ ms, lookupAll ((View.server A sid).at d) t us = .ok ms →
            (us.filterMap fun u => (Dict.get? d (redisKey sid t u)).map Obj.m) = ms := by
      induction us with
      | nil => exact ⟨rfl, fun ms h => by cases h; rfl⟩
      | cons u us ih =>
        obtain ⟨i1, i2⟩ := ih
        have hf : ((View.server A sid).at d).find t u = (Dict.get? d (redisKey sid t u)).map Obj.m := rfl
        unfold Proc.mapEach lookupAll
        rw [Proc.run_bind, hf]
        cases ho : Dict.get? d (redisKey sid t u) with
        | none =>
          have h1 : (pLoad A (redisKey sid t u)).run d = (.error .objectNotFound, d) := by simp only [pLoad, Proc.run, Cmd.exec, ho]
          rw [h1]
          exact ⟨rfl, fun ms h => by cases h⟩
        | some o =>
          have h1 : (pLoad A (redisKey sid t u)).run d = (.ok { o with adapter := some A.ref }, d) := by simp only [pLoad, Proc.run, Cmd.exec, ho]
          rw [h1]
          simp only [Option.map_some]
          rw [Proc.run_bind, i1]
          cases hl : lookupAll ((View.server A sid).at d) t us with
          | error e => exact ⟨rfl, fun ms h => by cases h⟩
          | ok ms' =>
            refine ⟨by simp [Proc.run, ho], fun ms h => ?_⟩
            cases h
            simp [ho, i2 ms' hl]
    unfold Runs
    rw [Proc.run_bind, key.1]
    cases hl : lookupAll ((View.server A sid).at d) t us with
    | error e => rfl
    | ok ms =>
      simp only [Proc.run, P.lift, List.map_filterMap, Option.map_map]
      exact congrArg (fun x => (Except.ok x, d)) (key.2 ms hl)

theorem Runs.childModels (v : View V) (o : Option (Model V)) (ct f : String) : Runs d (qChildModels v o ct f) (pChildModels (v.at d) o ct f) := by
  unfold qChildModels pChildModels
  cases o with
  | none => rfl
  | some m =>
    dsimp only
    cases m.kidList f with
    | none => rfl
    | some us => exact Runs.byUids v us ct

theorem Runs.childLoop {rec : List (Model V) → List (Model V) → Proc V (List (Elem V))} {rec' : List (Model V) → List (Model V) → P (List (Elem V))}
    (hrec : ∀ a b, Runs d (rec a b) (rec' a b)) (s t : Option (Model V)) (mapping : Dict String) (kids : List (Elem V)) :
    Runs d (qChildLoop vs vd rec s t mapping kids) (pChildLoop (vs.at d) (vd.at d) rec' s t mapping kids) := by
  induction mapping generalizing kids with
  | nil => rfl
  | cons x rest ih =>
    exact Runs.bind (Runs.childModels _ _ _ _) fun _ => Runs.bind (Runs.childModels _ _ _ _) fun _ => Runs.bind (hrec _ _) fun _ =>
      Runs.bind (Runs.lift _) fun _ => ih _

theorem Runs.mapping (s t : Option (Model V)) : Runs d (.ret (qMapping s t)) (pMapping s t) := by
  cases s with
  | none => cases t <;> rfl
  | some s =>
    cases t with
    | none => rfl
    | some t =>
      unfold pMapping
      refine Runs.ticks _ (fun x => ?_) _ (Runs.ticks _ (fun x => ?_) _ rfl)
      · split
        · exact ⟨0, rfl⟩
        · exact ⟨_, rfl⟩
      · split
        · exact ⟨0, rfl⟩
        · exact ⟨_, rfl⟩

theorem Runs.pair {rec : List (Model V) → List (Model V) → Proc V (List (Elem V))} {rec' : List (Model V) → List (Model V) → P (List (Elem V))}
    (hrec : ∀ a b, Runs d (rec a b) (rec' a b)) (s t : Option (Model V)) : Runs d (qPair C vs vd rec s t) (pPair C (vs.at d) (vd.at d) rec' s t) := by
  unfold qPair pPair
  cases s.or t with
  | none => rfl
  | some m =>
    dsimp only
    split
    · exact Runs.tick _ rfl
    · exact Runs.tick _ (Runs.bind (Runs.mapping _ _) fun _ => Runs.bind (Runs.childLoop hrec _ _ _ _) fun _ => rfl)

theorem Runs.pairs {f : Option (Model V) → Option (Model V) → Proc V (Option (Elem V))} {g : Option (Model V) → Option (Model V) → P (Option (Elem V))}
    (h : ∀ a b, Runs d (f a b) (g a b)) (l : List (Option (Model V) × Option (Model V))) : Runs d (qPairs f l) (pPairs g l) := by
  induction l with
  | nil => rfl
  | cons x l ih => exact Runs.bind (h _ _) fun _ => Runs.bind ih fun _ => rfl

theorem Runs.list (n : Nat) (a b : List (Model V)) : Runs d (qList C vs vd n a b) (pList C (vs.at d) (vd.at d) n a b) := by
  induction n generalizing a b with
  | zero => rfl
  | succ n ih => exact Runs.tick _ (Runs.bind (Runs.lift _) fun _ => Runs.pairs (Runs.pair ih) _)

theorem Runs.types (n : Nat) (ts : List String) (kids : List (Elem V)) : Runs d (qTypes C vs vd n ts kids) (pTypes C (vs.at d) (vd.at d) n ts kids) := by
  induction ts generalizing kids with
  | nil => rfl
  | cons t ts ih =>
    unfold qTypes pTypes
    rw [← P.ret_bind ((vs.at d).all t) (fun s => P.bind (pList C (vs.at d) (vd.at d) n s ((vd.at d).all t)) fun es =>
      P.bind (P.lift (addElems kids es)) fun kids' => pTypes C (vs.at d) (vd.at d) n ts kids')]
    refine Runs.bind (Runs.all vs t) fun s => ?_
    rw [← P.ret_bind ((vd.at d).all t) (fun x => P.bind (pList C (vs.at d) (vd.at d) n s x) fun es =>
      P.bind (P.lift (addElems kids es)) fun kids' => pTypes C (vs.at d) (vd.at d) n ts kids')]
    exact Runs.bind (Runs.all vd t) fun x => Runs.bind (Runs.list n s x) fun _ => Runs.bind (Runs.lift _) fun _ => ih _

theorem run_skipped (t : String) : (qSkipped C vs vd t).run d = (.ok (), d) := by
  have key : ∀ v : View V, ((v.all t).bind fun _ => .ret (.ok ())).run d = (.ok (), d) := fun v => by
    rw [Proc.run_bind, Runs.all v t]
    rfl
  unfold qSkipped
  split
  · exact key vd
  · split
    · exact key vs
    · rfl

theorem run_skips (ts : List String) : (Proc.forEach (qSkipped C vs vd) ts).run d = (.ok (), d) := by
  induction ts with
  | nil => rfl
  | cons t ts ih =>
    unfold Proc.forEach
    rw [Proc.run_bind, run_skipped]
    exact ih

theorem run_len (v : View V) : v.len.run d = (.ok (), d) := by
  cases v <;> rfl

theorem Runs.diff (n : Nat) : Runs d (qDiff C vs vd n) (pDiff C (vs.at d) (vd.at d) n) := by
  unfold qDiff pDiff Runs
  rw [Proc.run_bind, run_len]
  simp only
  rw [Proc.run_bind, run_len]
  simp only
  rw [Proc.run_bind, run_skips]
  simp only
  refine Runs.ticks _ (fun t => ?_) _ (Runs.types n _ _)
  unfold pSkipped
  split
  · exact ⟨_, rfl⟩
  · split
    · exact ⟨_, rfl⟩
    · exact ⟨_, rfl⟩

end

/-- **C82** Alone on the server, the commands of a diff give what `diff_from` gives, for adapters with stores of either kind, and leave the server as it is. -/
theorem C82_alone (n : Nat) (dst src : Adapter V) (dc : DiffClass V) (flags : Nat) (w : World V E) (hw : w.OK) :
    (qDiff ⟨src, dst, flags⟩ (View.of src w) (View.of dst w) n).run w.redis = ((diffFrom n dst src dc flags w).1.map Diff.kids, w.redis) := by
  have h := Runs.diff (d := w.redis) (C := ⟨src, dst, flags⟩) (vs := View.of src w) (vd := View.of dst w) n
  unfold Runs at h
  rw [h, View.at_of, View.at_of]
  have h2 := (diffFrom_raw n dst src dc flags w hw.refs_lt hw.tbl_wf).2
  cases hp : pDiff ⟨src, dst, flags⟩ (rawSnap src w) (rawSnap dst w) n with
  | error e =>
    rw [hp] at h2
    simp only at h2
    rw [h2]
    rfl
  | ok x =>
    obtain ⟨es, k⟩ := x
    rw [hp] at h2
    rw [h2.1]
    rfl

end DS
