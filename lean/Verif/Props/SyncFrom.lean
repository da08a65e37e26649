import Verif.Lemmas.SyncFrom
/-! # C89: whole syncs into one Redis store at the same time, from the computation of the diff on -/
set_option linter.unusedSectionVars false

namespace DS
variable {V E : Type} [PyVal V]

/-! ## What such a sync sends -/

theorem Told.client {H : Dict (Obj V) → Prop} {P : Cmd V → Prop} {J : FromJob V E} {A : Adapter V} {sid : String} {R : List (Elem V) → Prop}
    (hR : ∀ c : Cmd V, c.Reads → P c) (hd : ∀ es, Can H (qDiff ⟨J.src, A, J.flags⟩ (View.of J.src J.mem) (View.of A J.mem) J.depth) (.ok es) → R es)
    (hs : ∀ es, R es → Told H P (fun _ => True) (cPerformSync (J.ctx A) sid J.depth ⟨J.dc, es, 0⟩ J.mem)) : Told H P (fun _ => True) (J.client A sid) := by
  unfold FromJob.client cSyncFromR
  show Told H P (fun _ => True) (Cl.bind (cDiffFrom J.depth A J.src J.dc J.flags) _ J.mem)
  have hdiff : Told H P (fun p => p.2 = J.mem ∧ ∀ d, p.1 = .ok d → ∃ es, R es ∧ d = ⟨J.dc, es, 0⟩) (cDiffFrom (E := E) J.depth A J.src J.dc J.flags J.mem) := by
    unfold cDiffFrom
    refine Told.bind (R := fun r => ∀ es, r = .ok es → R es) (Sends.told (Sends.attempt ?_) ?_) fun r hr => .ret fun a ha => ?_
    · exact (C82_reads_only ⟨J.src, A, J.flags⟩ (View.of J.src J.mem) (View.of A J.mem) J.depth)|>.mono hR
    · intro r hr es he
      obtain ⟨r', h1, h2⟩ := hr.of_attempt
      cases h1
      exact hd es (he ▸ h2)
    · cases ha
      refine ⟨rfl, fun d hd => ?_⟩
      cases r with
      | error e => cases hd
      | ok es => cases hd; exact ⟨es, hr es rfl, rfl⟩
  refine hdiff.bind fun p hp => ?_
  obtain ⟨r, w⟩ := p
  obtain ⟨h1, h2⟩ := hp
  dsimp only at h1
  subst h1
  cases r with
  | error e => exact .ret fun _ _ => trivial
  | ok d =>
    obtain ⟨es, h3, rfl⟩ := h2 d rfl
    refine (hs es h3).bind fun q _ => ?_
    obtain ⟨r, w⟩ := q
    cases r with
    | error e => exact .ret fun _ _ => trivial
    | ok ch =>
      cases ch <;> exact .ret fun _ _ => trivial

theorem Sends.client {P : Cmd V → Prop} {J : FromJob V E} {A : Adapter V} {sid : String} (hq : Sends P (DS.qDiff ⟨J.src, A, J.flags⟩ (View.of J.src J.mem) (View.of A J.mem) J.depth))
    (hs : ∀ es, Sends P (cPerformSync (J.ctx A) sid J.depth ⟨J.dc, es, 0⟩ J.mem)) : Sends P (J.client A sid) := by
  unfold FromJob.client cSyncFromR
  show Sends P (Cl.bind (cDiffFrom J.depth A J.src J.dc J.flags) _ J.mem)
  unfold Cl.bind cDiffFrom
  revert hq
  generalize DS.qDiff ⟨J.src, A, J.flags⟩ (View.of J.src J.mem) (View.of A J.mem) J.depth = q
  intro hq
  induction hq with
  | ret r =>
    cases r with
    | error e => exact .ret _
    | ok es =>
      show Sends P (Proc.bind (cPerformSync (J.ctx A) sid J.depth ⟨J.dc, es, 0⟩ J.mem) _)
      refine Sends.bind (hs es) fun q => ?_
      obtain ⟨r, w⟩ := q
      cases r with
      | error e => exact .ret _
      | ok ch => cases ch <;> exact .ret _
  | cmd hc _ ih => exact .cmd hc fun x hx => ih x hx

section
variable {J : FromJob V E} {A : Adapter V} {sid : String}

theorem client_proper (hA : A.OnServer sid) : Sends Cmd.Proper (J.client A sid) :=
  .client ((C82_reads_only _ _ _ _).mono fun c hc => by cases c <;> first | trivial | exact hc.elim) fun _ => sync_proper (S := J.ctx A) hA.store hA.sid_ok hA.valid hA.plain _ _ _

/-- Commands that store only instances of the adapter's classes. -/
def Cmd.OfClasses (A : Adapter V) : Cmd V → Prop
  | .set _ o => Dict.get? A.classes o.m.type = some o.m.cls
  | _ => True

theorem createsAs_instance (hv : A.Valid) {e : Elem V} {m : Model V} (h : CreatesAs A e m) : m.type = e.type ∧ Dict.get? A.classes m.type = some m.cls := by
  obtain ⟨_, c, h1, h2⟩ := h
  have hc : m.cls = c := (construct_good (hv.valid _ _ h1) _ h2).1
  have ht : m.type = e.type := by unfold Model.type; rw [hc, hv.names _ _ h1]
  exact ⟨ht, by rw [ht, hc]; exact h1⟩

theorem client_instances (hA : A.OnServer sid) : Sends (Cmd.OfClasses A) (J.client A sid) := by
  refine .client ((C82_reads_only _ _ _ _).mono fun c hc => by cases c <;> first | trivial | exact hc.elim) fun es => ?_
  refine Talks.sends (ClT.performSync (g := False) (S := J.ctx A) hA.store (fun h => h.elim) (fun h => h.elim) (fun h => h.elim) ?_ _ _)
  refine ⟨fun t u => trivial, fun t u => trivial, trivial, fun s hs t u => trivial, fun o _ ⟨e, _, _, hc, _⟩ _ => (createsAs_instance hA.valid hc).2, fun t u _ => trivial⟩

omit [PyVal V] in
theorem redisKey_any {ks t u t' u' : String} (sid : String) (h : redisKey ks t u = redisKey ks t' u') : redisKey sid t u = redisKey sid t' u' := by
  unfold redisKey at h ⊢
  have h := congrArg String.toList h
  simp only [String.toList_append, List.append_cancel_left_eq] at h
  refine String.toList_inj.1 ?_
  simp only [String.toList_append, h]

theorem server_find {B : Adapter V} {ks : String} {d : Dict (Obj V)} {t u : String} {m : Model V} (h : (View.server B ks).find d t u = some m) :
    ∃ o, Dict.get? d (redisKey ks t u) = some o ∧ o.m = m := by
  simp only [View.find] at h
  cases hg : Dict.get? d (redisKey ks t u) with
  | none => rw [hg] at h; cases h
  | some o => rw [hg] at h; exact ⟨o, rfl, Option.some.inj h⟩

theorem keysRight_at {ks : String} {d : Dict (Obj V)} {t u : String} {o : Obj V} (hs : Plain ks) (hk : KeysRight d) (h : Dict.get? d (redisKey ks t u) = some o) :
    Plain o.m.type ∧ redisKey ks t u = redisKey ks o.m.type o.m.uid := by
  obtain ⟨sid', h1, h2, h3, _⟩ := hk _ _ h
  have := ofStore_inj hs h1 (ofStore_key ks t u) (h3 ▸ ofStore_key sid' _ _)
  subst this
  exact ⟨h2, h3⟩

theorem WayTo.takes {J : FromJob V E} {H : Dict (Obj V) → Prop} (hs : (View.of J.src J.mem).Sound H) (ht : ∀ t ∈ J.src.topLevel, (View.of J.src J.mem).Takes t) {π : List Key} {m : Model V} {t u : String}
    (h : WayTo (J.Had H) J.src.topLevel ((t, u) :: π) m) : (View.of J.src J.mem).Takes t := by
  generalize hρ : (t, u) :: π = ρ at h
  induction h generalizing t u π with
  | top h1 _ => cases hρ; exact ht _ h1
  | @step π' p t' u' m' hw hl _ ih =>
    cases hρ
    cases π' with
    | nil => cases hw
    | cons k π =>
      refine (hs.kids k.1 k.2 p (ih rfl) (WayTo.has_last (t := k.1) (u := k.2) hw)).2 t' ?_
      unfold Model.lists at hl
      split at hl
      · cases hl
      · rename_i f hf; exact List.mem_map_of_mem (f := Prod.fst) (Dict.mem_of_get? hf)

theorem from_readable {H : Dict (Obj V) → Prop} (hJ : J.Ready A H) (hA : A.OnServer sid) (hk : ∀ d, H d → KeysRight d) (hi : ∀ d, H d → AllInstances A sid d) :
    Readable ⟨J.src, A, J.flags⟩ (View.of J.src J.mem) (View.of A J.mem) H := by
  have hvd : View.of A J.mem = .server A sid := by unfold View.of; rw [hA.store]
  rw [hvd]
  have hraw : ∀ t u m, Seen (.server A sid) H t u (some m) → (Plain m.type ∧ redisKey sid t u = redisKey sid m.type m.uid) ∧ Dict.get? A.classes m.type = some m.cls := by
    rintro t u m ⟨d, hd, hf⟩
    obtain ⟨o, hg, rfl⟩ := server_find hf
    exact ⟨keysRight_at hA.sid_ok (hk d hd) hg, hi d hd _ o (ofStore_key _ _ _) hg⟩
  have hdst : ∀ t u m, Plain t → Seen (.server A sid) H t u (some m) → (m.type = t ∧ m.uid = u) ∧ Dict.get? A.classes m.type = some m.cls := by
    intro t u m ht h
    obtain ⟨⟨h1, h2⟩, h3⟩ := hraw t u m h
    obtain ⟨_, h4, h5⟩ := redisKey_inj hA.sid_ok hA.sid_ok ht h1 h2
    exact ⟨⟨h4.symm, h5.symm⟩, h3⟩
  refine ⟨hJ.ok, ⟨hA.sid_ok, fun t u m ht h => (hdst t u m ht h).1, fun t u m ht h => hA.kids _ _ (hdst t u m ht h).2⟩, hJ.top, hA.top_plain, ?_, hA.top⟩
  intro t u s d h1 h2
  obtain ⟨⟨a1, a2⟩, a3⟩ := hraw t u d h2
  have ht : s.type = d.type := by
    cases hst : J.src.ref.store with
    | «local» k =>
      have hv : View.of J.src J.mem = .held (snap J.src J.mem).all (snap J.src J.mem).find := by unfold View.of; rw [hst]
      have hkey := hJ.ok.keys t u s (by rw [hv]; trivial) h1
      have hp := hJ.plain t u s h1
      rw [hkey.1] at hp
      rw [hkey.1, (redisKey_inj hA.sid_ok hA.sid_ok hp a1 a2).2.1]
    | redis ks =>
      have hv : View.of J.src J.mem = .server J.src ks := by unfold View.of; rw [hst]
      have hok := hJ.ok
      rw [hv] at hok h1
      obtain ⟨x, hx, hf⟩ := h1
      obtain ⟨o, hg, rfl⟩ := server_find hf
      obtain ⟨b1, b2⟩ := keysRight_at hok.lists (hk x hx) hg
      exact (redisKey_inj hA.sid_ok hA.sid_ok b1 a1 ((redisKey_any sid b2).symm.trans a2)).2.1
  exact hJ.fields t u s d.cls h1 (ht ▸ a3)

theorem client_does {H : Dict (Obj V) → Prop} (hH : ∃ d, H d) (hR : Readable ⟨J.src, A, J.flags⟩ (View.of J.src J.mem) (View.of A J.mem) H) (hA : A.OnServer sid)
    {Q : String → Option (Obj V) → Prop} (hq : Right sid Q) (hQ : ∀ d, H d → ∀ key, Q key (Dict.get? d key)) :
    Told H (fun c => c.Reads ∨ ∃ es, ReportsTop ⟨J.src, A, J.flags⟩ (View.of J.src J.mem) (View.of A J.mem) H es ∧ SyncDoes Q sid ⟨J.ctx A, J.depth, ⟨J.dc, es, 0⟩, J.mem⟩ c)
      (fun _ => True) (J.client A sid) := by
  refine Told.client (R := ReportsTop ⟨J.src, A, J.flags⟩ (View.of J.src J.mem) (View.of A J.mem) H) (fun c hc => .inl hc) (fun es h => h.diff_ok hH hR) fun es hes => ?_
  refine Talks.told (Talks.weaken ?_ fun c hc => .inr ⟨es, hes, hc⟩) hQ
  refine ClT.performSync (g := True) (S := J.ctx A) (d := ⟨J.dc, es, 0⟩) hA.store (fun _ => hA.valid.names) (fun _ => hq) (fun _ => hes.delBelow) ?_ J.depth J.mem
  exact ⟨fun _ _ => trivial, fun _ _ => trivial, trivial, fun _ _ _ _ => trivial, fun o _ h1 h2 => ⟨h2, rfl, h1⟩, fun t u h => h trivial⟩

end

/-! ## At the same time -/

section
variable {A : Adapter V} {sid : String} {jobs : Nat → Option (FromJob V E)} {s s' : Sys V (Except Err (Diff V) × World V E)} {l : List (Sys V (Except Err (Diff V) × World V E))}

theorem Clients.keysRight (h : Clients A sid jobs s) (hA : A.OnServer sid) (he : Exec s l s') (hk : KeysRight s.srv) : ∀ d, Moments l d → KeysRight d := by
  rintro d ⟨t, ht, rfl⟩
  refine C65_keys_right he (fun j => ?_) hk t ht
  cases hj : jobs j with
  | none => obtain ⟨p, h1, _, h3⟩ := h.others j hj; rw [h1]; exact h3
  | some J => rw [h.syncs j J hj]; exact client_proper hA

theorem Clients.instances (h : Clients A sid jobs s) (hA : A.OnServer sid) (he : Exec s l s') (hi : AllInstances A sid s.srv) : ∀ d, Moments l d → AllInstances A sid d := by
  rintro d ⟨t, ht, rfl⟩ key o hkey ho
  have := talks_exec he (Q := fun _ _ => True) (P := fun _ c => ∀ key o, c = .set key o → OfStore sid key → Dict.get? A.classes o.m.type = some o.m.cls) (fun _ _ _ => trivial) (fun j => by
    cases hj : jobs j with
    | none =>
      obtain ⟨p, h1, h2, _⟩ := h.others j hj
      rw [h1]
      exact (Sends.mono (fun c hc => by rintro key o rfl hk; exact (hc hk).elim) h2).talks
    | some J =>
      rw [h.syncs j J hj]
      exact (Sends.mono (fun c hc => by rintro key o rfl hk; exact hc) (client_instances hA)).talks) t ht
  rcases this.1 key o ho with h | ⟨j, h⟩
  · exact hi key o hkey h
  · exact h key o rfl hkey

/-- **C89** Any number of clients call `sync_from` on adapters with the same Redis store at the same time, each for a source of its own (in its own memory, or in any store on the server),
and each of them may be killed at any point, while the other clients of the server do anything but write to that store.  At every time, what is stored under a key of the store was stored there
before exactly like that, or is an object, under its own key, made from an object that one of the sources had; and what was stored before is still there like that, unless it is at a
place where one of the sources did not keep an object all the time, or it goes along with an object flagged SKIP_CHILDREN_ON_DELETE at such a place. -/
theorem C89_same_store (he : Exec s l s') (hA : A.OnServer sid) (hk : KeysRight s.srv) (hi : AllInstances A sid s.srv) (hc : Clients A sid jobs s)
    (hJ : ∀ j J, jobs j = some J → J.Ready A (Moments l)) {key : String} (hkey : OfStore sid key) {o : Obj V} :
    (Dict.get? s'.srv key = some o → Dict.get? s.srv key = some o ∨ key = redisKey sid o.m.type o.m.uid ∧ ∃ j J, jobs j = some J ∧ MadeFrom J A (Moments l) o.m) ∧
    (Dict.get? s.srv key = some o → Dict.get? s'.srv key = some o ∨ ∃ j J, jobs j = some J ∧
      ((∃ t u, key = redisKey sid t u ∧ Dropped J A sid l t u) ∨ AlsoGone (Dropped J A sid l) (StoredDuring l) sid key)) := by
  have hright := hc.keysRight hA he hk
  have hinst := hc.instances hA he hi
  have hH : ∃ d, Moments l d := ⟨_, s, he.first, rfl⟩
  let Q : String → Option (Obj V) → Prop := fun key x => ∃ t ∈ l, Dict.get? t.srv key = x
  have hq : Right sid Q := by
    rintro t u o ⟨x, hx, h⟩
    obtain ⟨sid2, h1, _, h3, _⟩ := hright _ ⟨x, hx, rfl⟩ _ _ h
    have := ofStore_inj hA.sid_ok h1 (ofStore_key sid t u) (h3 ▸ ofStore_key sid2 _ _)
    subst this
    exact h3
  have hQ : ∀ d, Moments l d → ∀ key, Q key (Dict.get? d key) := by
    rintro d ⟨t, ht, rfl⟩ key
    exact ⟨t, ht, rfl⟩
  let P : Nat → Cmd V → Prop := fun j c => ∀ k, (∃ o, c = .set k o) ∨ c = .del k → OfStore sid k → ∃ J es, jobs j = some J ∧
    ReportsTop ⟨J.src, A, J.flags⟩ (View.of J.src J.mem) (View.of A J.mem) (Moments l) es ∧ SyncDoes Q sid ⟨J.ctx A, J.depth, ⟨J.dc, es, 0⟩, J.mem⟩ c
  have hmain := told_exec he (P := P) (fun j => by
    cases hj : jobs j with
    | none =>
      obtain ⟨p, h1, h2, _⟩ := hc.others j hj
      rw [h1]
      refine Sends.told (Sends.mono (fun c hc => ?_) h2) fun _ _ => trivial
      rintro k (⟨o, rfl⟩ | rfl) hk <;> exact (hc hk).elim
    | some J =>
      rw [hc.syncs j J hj]
      refine Told.weaken (client_does hH (from_readable (hJ j J hj) hA hright hinst) hA hq hQ) fun c hcc => ?_
      rintro k hk hs
      rcases hcc with hcc | ⟨es, h3, h4⟩
      · rcases hk with ⟨o, rfl⟩ | rfl <;> exact hcc.elim
      · exact ⟨J, es, hj, h3, h4⟩)
  obtain ⟨m1, m2, _⟩ := hmain s' he.last
  have place : ∀ j J es, jobs j = some J → ReportsTop ⟨J.src, A, J.flags⟩ (View.of J.src J.mem) (View.of A J.mem) (Moments l) es → ∀ e, InTree e es →
      ∃ π q, Reports ⟨J.src, A, J.flags⟩ (View.of J.src J.mem) (View.of A J.mem) (Moments l) e q ∧
        OnWay (J.Had (Moments l)) (J.Kept (Moments l)) (fun t u m => ∃ o, StoredDuring l (redisKey sid t u) o ∧ o.m = m) J.src.topLevel A.topLevel π q := by
    intro j J es hj hes e he
    have hvd : View.of A J.mem = .server A sid := by unfold View.of; rw [hA.store]
    rw [hvd] at hes ⊢
    obtain ⟨π, q, h1, h2⟩ := hes.onPath (hs := J.Had (Moments l)) (ha := J.Kept (Moments l)) (fun t u m h => h) (fun t u m o h h' => h o h') (fun t u m m' h h' => Option.some.inj (h' _ h)) e he
    refine ⟨π, q, h1, h2.head, h2.src, h2.src_none, fun m hm => (h2.dst m hm).mono ?_, h2.some_side⟩
    rintro t u m ⟨d, ⟨x, hx, rfl⟩, hf⟩
    simp only [View.find] at hf
    cases hg : Dict.get? x.srv (redisKey sid t u) with
    | none => rw [hg] at hf; cases hf
    | some o => rw [hg] at hf; exact ⟨o, ⟨x, hx, hg⟩, Option.some.inj hf⟩
  have hdrop : ∀ j J es e t u, jobs j = some J → ReportsTop ⟨J.src, A, J.flags⟩ (View.of J.src J.mem) (View.of A J.mem) (Moments l) es → InTree e es → e.action = some .delete →
      ElemKey A e (t, u) → Dropped J A sid l t u := by
    intro j J es e t u hj hes he ha hkk
    obtain ⟨π, q, h1, h2⟩ := place j J es hj hes e he
    obtain ⟨a1, m, a2, a3⟩ := h1.src_none ha
    obtain ⟨ρ, rfl⟩ := h2.head
    have hway := h2.dst m a2
    obtain ⟨c, u', b1, b2, b3⟩ := hkk
    cases b3
    have ht : e.type = q.type := h1.hdr.type_eq
    obtain ⟨o, ⟨x, hx, ho⟩, rfl⟩ := hway.has_last
    obtain ⟨sid', c1, c2, c3, _⟩ := hright _ ⟨x, hx, rfl⟩ _ _ ho
    obtain ⟨_, c4, c5⟩ := redisKey_inj hA.sid_ok c1 (ht ▸ hA.plain _ _ b1) c2 c3
    have hcls := hinst _ ⟨x, hx, rfl⟩ _ o (ofStore_key _ _ _) ho
    rw [← c4, ← ht, b1] at hcls
    cases hcls
    rw [a3] at b2
    have hu := createUniqueId_uid rfl b2
    rw [hu, ← c5, ht]
    exact ⟨ρ, _, hway, h2.src_none a1⟩
  have hgone : (∃ j, P j (.del key)) → ∃ j J, jobs j = some J ∧
      ((∃ t u, key = redisKey sid t u ∧ Dropped J A sid l t u) ∨ AlsoGone (Dropped J A sid l) (StoredDuring l) sid key) := by
    rintro ⟨j, h⟩
    obtain ⟨J, es, h1, h2, h3⟩ := h key (.inr rfl) hkey
    refine ⟨j, J, h1, ?_⟩
    rcases h3 with ⟨e, t, u, a1, a2, a3, a4⟩ | h3
    · exact .inl ⟨t, u, a4.symm, hdrop j J es e t u h1 h2 a1 a2 a3⟩
    · refine .inr ?_
      clear hkey m1 m2 h
      induction h3 with
      | root a1 a2 a3 a4 a5 => exact .root (hdrop j J es _ _ _ h1 h2 a1 a2 a3) a4 a5
      | down _ a1 a2 ih => exact .down ih a1 a2
  constructor
  · intro h
    refine (m1 key o h).imp id ?_
    rintro ⟨j, hs⟩
    obtain ⟨J, es, h1, h2, _, h3, e, u, h4, h5, h6⟩ := hs key (.inl ⟨o, rfl⟩) hkey
    refine ⟨h3, j, J, h1, ?_⟩
    obtain ⟨π, q, g1, g2⟩ := place j J es h1 h2 e h4
    obtain ⟨m, a1, a2, a3⟩ := g1.creates h5.1
    have hway := g2.src m a1
    obtain ⟨ha, c, h7, h8⟩ := h5
    obtain ⟨ρ, rfl⟩ := g2.head
    have hJ := hJ j J h1
    obtain ⟨b1, b2⟩ := hJ.ok.keys _ _ m (hway.takes hJ.ok hJ.top) hway.has_last
    have ht : e.type = m.type := g1.hdr.type_eq.trans b1.symm
    obtain ⟨c', u', h9, h10, h11⟩ := h6
    cases h11
    have h7' : Dict.get? A.classes e.type = some c := h7
    rw [show (J.ctx A).dst = A from rfl, h7'] at h9
    cases h9
    have hty := (createsAs_instance hA.valid ⟨ha, c, h7, h8⟩).1
    have hids : c.KeepsIds m.identifiers := hJ.ids _ _ m c hway.has_last (by rw [← b1, ← ht]; exact h7)
    have hu := construct_uid (hA.valid.valid _ _ h7) h8 (a2 ▸ hids) h10
    refine ⟨_, m, c, hway, ht ▸ h7, ?_, hty.trans ht, ?_⟩
    · rw [← a2, ← construct_congr a3]; exact h8
    · rw [← a2, hu]; exact h10
  · intro h
    rcases m2 key o h with h' | h' | ⟨j, o', hs⟩
    · exact .inl h'
    · exact .inr (hgone h')
    · obtain ⟨J, _, _, _, ⟨t, ht, hn⟩, _⟩ := hs key (.inl ⟨o', rfl⟩) hkey
      exact .inr (hgone ((hmain t ht).2.2 key o h hn))

/-- **C89** What these theorems assume of a source (`FromJob.Ready`) holds of every source with a store of its own on the server, if at the start that store holds instances of the source's
classes, and the clients that do not call `sync_from` store nothing else there, at any time: they may add, change and remove objects in it. -/
theorem C89_source_on_server (he : Exec s l s') (hA : A.OnServer sid) (hk : KeysRight s.srv) (hc : Clients A sid jobs s) {J : FromJob V E} {ks : String} (hB : J.src.OnServer ks) (hne : ks ≠ sid)
    (hi : AllInstances J.src ks s.srv) (ho : ∀ j, jobs j = none → (s.cl j).All (Sends (Cmd.OnlyInstances J.src ks))) (hf : ClassesFit J.src A) : J.Ready A (Moments l) := by
  have hright := hc.keysRight hA he hk
  have hinst : ∀ d, Moments l d → AllInstances J.src ks d := by
    rintro d ⟨t, ht, rfl⟩ key o hkey ho'
    have := talks_exec he (Q := fun _ _ => True) (P := fun _ c => c.OnlyInstances J.src ks) (fun _ _ _ => trivial) (fun j => by
      cases hj : jobs j with
      | none =>
        obtain ⟨p, h1, _, _⟩ := hc.others j hj
        have := ho j hj
        rw [h1] at this ⊢
        exact Sends.talks this
      | some K =>
        rw [hc.syncs j K hj]
        refine Sends.talks (.client ((C82_reads_only _ _ _ _).mono fun c hc => by cases c <;> first | trivial | exact hc.elim) fun es => ?_)
        refine (sync_spares (S := K.ctx A) (K := OfStore ks) hA.store _ _ _ fun key h h' => hne (ofStore_inj hB.sid_ok hA.sid_ok h' h)).mono fun c hc => ?_
        cases c <;> first | trivial | exact fun h => (hc h).elim) t ht
    rcases this.1 key o ho' with h | ⟨j, h⟩
    · exact hi key o hkey h
    · exact h hkey
  have hv : View.of J.src J.mem = .server J.src ks := by unfold View.of; rw [hB.store]
  have had : ∀ t u m, Seen (.server J.src ks) (Moments l) t u (some m) → (Plain m.type ∧ redisKey ks t u = redisKey ks m.type m.uid) ∧ Dict.get? J.src.classes m.type = some m.cls := by
    rintro t u m ⟨d, hd, hf⟩
    obtain ⟨o, hg, rfl⟩ := server_find hf
    exact ⟨keysRight_at hB.sid_ok (hright d hd) hg, hinst d hd _ o (ofStore_key _ _ _) hg⟩
  have key : ∀ t u m, Plain t → Seen (.server J.src ks) (Moments l) t u (some m) → m.type = t ∧ m.uid = u := by
    intro t u m ht h
    obtain ⟨⟨a1, a2⟩, _⟩ := had t u m h
    obtain ⟨_, h1, h2⟩ := redisKey_inj hB.sid_ok hB.sid_ok ht a1 a2
    exact ⟨h1.symm, h2.symm⟩
  constructor
  · rw [hv]; exact ⟨hB.sid_ok, key, fun t u m _ h => hB.kids _ _ (had t u m h).2⟩
  · rw [hv]; exact hB.top_plain
  · intro t u m c h h1
    unfold FromJob.Had at h
    rw [hv] at h
    exact hf.fields _ _ _ (had t u m h).2 h1
  · intro t u m c h h1
    unfold FromJob.Had at h
    rw [hv] at h
    have ht := (key t u m (hA.plain _ _ h1) h).1
    exact hf.ids m c (had t u m h).2 (ht ▸ h1)
  · intro t u m h
    unfold FromJob.Had at h
    rw [hv] at h
    exact (had t u m h).1.1

/-- **C89** The diff that such a call returns reports what was stored at times of the execution: it is a diff as C82 describes it. -/
theorem C89_returns (he : Exec s l s') (hA : A.OnServer sid) (hk : KeysRight s.srv) (hi : AllInstances A sid s.srv) (hc : Clients A sid jobs s) {i : Nat} {J : FromJob V E} (hJ : jobs i = some J)
    (hready : J.Ready A (Moments l))
    {d : Diff V} {w : World V E} (hr : s'.cl i = .at (.ret (.ok (.ok d, w)))) :
    d.cls = J.dc ∧ ReportsTop ⟨J.src, A, J.flags⟩ (View.of J.src J.mem) (View.of A J.mem) (Moments l) d.kids := by
  have h2 := hc.syncs i J hJ
  have hR := from_readable hready hA (hc.keysRight hA he hk) (hc.instances hA he hi)
  have h : Can (Moments l) (Cl.bind (cDiffFrom J.depth A J.src J.dc J.flags) (fun d =>
      Cl.bind (cPerformSync ⟨J.src, A, J.flags, d.cls, J.hooks, J.rlimit⟩ sid J.depth d) fun changed =>
      Cl.bind (Cl.lift (if changed then M.emit (.syncComplete A.ref.id J.src.ref.id) else M.pure ())) fun _ => Cl.lift (M.pure d)) J.mem) (.ok (.ok d, w)) := exec_can he h2 hr
  obtain ⟨⟨r, w1⟩, h3, h4⟩ := h.bind_ok
  cases r with
  | error e => cases h4.of_ret
  | ok d1 =>
    obtain ⟨⟨r, w2⟩, _, h5⟩ := Can.bind_ok h4
    obtain ⟨x, h6, h7⟩ := Can.bind_ok h3
    obtain ⟨x', h8, h9⟩ := h6.of_attempt
    cases h8
    cases x with
    | error e => cases h7.of_ret
    | ok es =>
      cases h7.of_ret
      have : d = ⟨J.dc, es, 0⟩ := by
        cases r with
        | error e => cases h5.of_ret
        | ok ch => cases ch <;> (cases h5.of_ret; rfl)
      subst this
      exact ⟨rfl, h9.diff_ok ⟨_, s, he.first, rfl⟩ hR⟩

theorem diff_about {J : FromJob V E} {H : Dict (Obj V) → Prop} (hA : A.OnServer sid) (hs : (View.of J.src J.mem).Sound H) (ht : ∀ t ∈ J.src.topLevel, (View.of J.src J.mem).Takes t) :
    Sends (Cmd.About (SyncKeys (J.ctx A) sid)) (qDiff ⟨J.src, A, J.flags⟩ (View.of J.src J.mem) (View.of A J.mem) J.depth) := by
  have hvd : View.of A J.mem = .server A sid := by unfold View.of; rw [hA.store]
  have server : ∀ (B : Adapter V) sid', Plain sid' → (∀ key, OfStore sid' key → SyncKeys (J.ctx A) sid key) → (View.server B sid').Asks (Cmd.About (SyncKeys (J.ctx A) sid)) Plain := fun B sid' hp hk =>
    ⟨fun t u => hk _ (ofStore_key _ _ _), fun key h => hk _ (scanStore_within (V := V) hp key h),
      fun t ht => ⟨fun key h => hk _ (scanType_within (V := V) hp ht key h), fun key h => hk _ (scanType_within (V := V) hp ht key h)⟩⟩
  rw [hvd]
  refine .qDiff (T := (View.of J.src J.mem).Takes) (T' := Plain) _ _ _ ?_ (server _ _ hA.sid_ok fun key h => .inl h) ht hA.top_plain _
  cases hst : J.src.ref.store with
  | «local» k =>
    have : View.of J.src J.mem = .held (snap J.src J.mem).all (snap J.src J.mem).find := by unfold View.of; rw [hst]
    rw [this]
    trivial
  | redis sid' =>
    have : View.of J.src J.mem = .server J.src sid' := by unfold View.of; rw [hst]
    rw [this] at hs ⊢
    exact server _ _ hs.lists fun key h => .inr ⟨sid', hst, h⟩

/-- **C89** And if the other clients do not write to the store, nor to the source's if that is on the server, then the diff describes what the source and the store hold when the call begins, and the call ends with the
result, the memory and the contents of the store that a sync with this diff has which has the server for itself; or the diff cannot be computed, for a reason in what they hold, and
the store is left as it was. -/
theorem C89_isolated (he : Exec s l s') (hA : A.OnServer sid) (hk : KeysRight s.srv) (hi : AllInstances A sid s.srv) {i : Nat} {J : FromJob V E} (hJ : J.Ready A (fun d => d = s.srv))
    (hc : s.cl i = .at (J.client A sid)) (ho : ∀ j, j ≠ i → (s.cl j).All (Sends (Cmd.Spares (SyncKeys (J.ctx A) sid)))) {r} (hr : s'.cl i = .at (.ret r)) :
    (∃ es, DescribesTop J.src A J.flags ((View.of J.src J.mem).at s.srv) ((View.server A sid).at s.srv) es ∧
      r = .ok ((J.apply A es (J.mem.onServer s.srv)).1, (J.apply A es (J.mem.onServer s.srv)).2.onServer J.mem.redis) ∧
      ∀ key, OfStore sid key → Dict.get? s'.srv key = Dict.get? (J.apply A es (J.mem.onServer s.srv)).2.redis key) ∨
    ∃ e, DiffProblem J.src A J.flags ((View.of J.src J.mem).at s.srv) ((View.server A sid).at s.srv) J.depth e ∧ r = .ok (.error e, J.mem) ∧
      ∀ key, OfStore sid key → Dict.get? s'.srv key = Dict.get? s.srv key := by
  have hvd : View.of A J.mem = .server A sid := by unfold View.of; rw [hA.store]
  have hR := from_readable (H := fun d => d = s.srv) hJ hA (fun d hd => hd ▸ hk) (fun d hd => hd ▸ hi)
  have hab : Sends (Cmd.About (SyncKeys (J.ctx A) sid)) (J.client A sid) :=
    .client (diff_about hA hJ.ok hJ.top) fun es => sync_about (S := J.ctx A) hA.store hA.sid_ok _ _ _
  obtain ⟨p', d', h1, h2⟩ := sees_exec he (p := J.client A sid) (d := s.srv) (K := SyncKeys (J.ctx A) sid) (i := i) ⟨by rw [hc]; rfl, hab, ho, fun _ _ => rfl, fun h => by rw [hc] at h; cases h⟩
  have hh := h2.here
  rw [hr] at hh
  cases hh
  have hs1 : KeepsAll (View.of J.src J.mem) (fun d => d = s.srv) ((View.of J.src J.mem).at s.srv) := by
    rintro _ rfl t u
    cases View.of J.src J.mem <;> rfl
  have hd1 : KeepsAll (View.of A J.mem) (fun d => d = s.srv) ((View.server A sid).at s.srv) := by rw [hvd]; rintro _ rfl t u; rfl
  have h3 : Solo (Cl.bind (cDiffFrom J.depth A J.src J.dc J.flags) (fun d =>
      Cl.bind (cPerformSync ⟨J.src, A, J.flags, d.cls, J.hooks, J.rlimit⟩ sid J.depth d) fun changed =>
      Cl.bind (Cl.lift (if changed then M.emit (.syncComplete A.ref.id J.src.ref.id) else M.pure ())) fun _ => Cl.lift (M.pure d)) J.mem, s.srv) (.ret r, d') := h1
  have hdiff : ∀ {x d1}, Solo (cDiffFrom (E := E) J.depth A J.src J.dc J.flags J.mem, s.srv) (.ret x, d1) → d1 = s.srv ∧
      ∃ r, Can (fun d => d = s.srv) (qDiff ⟨J.src, A, J.flags⟩ (View.of J.src J.mem) (View.of A J.mem) J.depth) r ∧ x = .ok (r.map fun es => ⟨J.dc, es, 0⟩, J.mem) := by
    intro x d1 h
    rcases solo_bind_ret h with ⟨e, h, _⟩ | ⟨r, d2, h, h4⟩
    · obtain ⟨_, h, _⟩ := solo_attempt h; cases h
    · obtain ⟨r', h5, h6⟩ := solo_attempt h
      cases h5
      obtain ⟨rfl, h8⟩ := solo_can (C82_reads_only _ _ _ _) h6
      cases solo_ret h4
      exact ⟨rfl, r, h8, rfl⟩
  rcases solo_bind_ret h3 with ⟨e, h, _⟩ | ⟨x, d1, h, h4⟩
  · obtain ⟨_, _, _, h⟩ := hdiff h; cases h
  · obtain ⟨rfl, r1, h5, h6⟩ := hdiff h
    cases h6
    cases r1 with
    | error e =>
      cases solo_ret h4
      exact .inr ⟨e, DiffTrouble.problem (C := ⟨J.src, A, J.flags⟩) hs1 hd1 (h5.diff_error (by exact ⟨s.srv, rfl⟩) hR), rfl, fun key hk => h2.agree key (.inl hk)⟩
    | ok es =>
      refine .inl ⟨es, ReportsTop.describes (C := ⟨J.src, A, J.flags⟩) hs1 hd1 (h5.diff_ok (by exact ⟨s.srv, rfl⟩) hR), ?_⟩
      have hrun : RunsAs (Cl.bind (cPerformSync (J.ctx A) sid J.depth ⟨J.dc, es, 0⟩) fun changed =>
          Cl.bind (Cl.lift (if changed then M.emit (.syncComplete A.ref.id J.src.ref.id) else M.pure ())) fun _ => Cl.lift (M.pure (⟨J.dc, es, 0⟩ : Diff V))) (J.apply A es) :=
        .bind (runs_performSync (J.ctx A) hA.store J.depth ⟨J.dc, es, 0⟩) fun ch => by
          cases ch with
          | false => exact RunsAs.lift (x := M.pure (⟨J.dc, es, 0⟩ : Diff V)) fun _ _ => rfl
          | true => exact RunsAs.bind (m := M.emit (.syncComplete A.ref.id J.src.ref.id)) (.lift fun _ _ => rfl) fun _ => .lift fun _ _ => rfl
      obtain ⟨e1, e2⟩ := hrun J.mem _ _ _ h4
      exact ⟨e1, fun key hk => by rw [h2.agree key (.inl hk), e2]; rfl⟩

/-- **C89** With a `diff` argument: an empty diff (one without changes) is ignored, that is the call is the one without the argument; one of another class raises `DiffClassMismatch` before anything is
sent to the server; and with any other one, if the other clients do not write to the store, nor to the source's, the call ends with the result (the diff that was passed, or an exception), the memory and the contents of the store of
`sync_from` with this diff in a world that has the server for itself. -/
theorem C89_given {J : FromJob V E} (d : Diff V) :
    (d.len = 0 → J.clientWith A sid d = J.client A sid) ∧
    (d.len ≠ 0 → ¬ d.cls.bases.contains J.dc.id → J.clientWith A sid d = .ret (.ok (.error .diffClassMismatch, J.mem))) ∧
    (d.len ≠ 0 → d.cls.bases.contains J.dc.id → A.ref.store = .redis sid → Plain sid →
      ∀ {i : Nat}, Exec s l s' → s.cl i = .at (J.clientWith A sid d) → (∀ j, j ≠ i → (s.cl j).All (Sends (Cmd.Spares (SyncKeys (J.ctx A) sid)))) → ∀ {r}, s'.cl i = .at (.ret r) →
      let alone := syncFrom J.depth J.rlimit J.hooks A J.src J.dc J.flags (some d) (J.mem.onServer s.srv)
      r = .ok (alone.1, alone.2.onServer J.mem.redis) ∧ (∀ d', alone.1 = .ok d' → d' = d) ∧ ∀ key, OfStore sid key → Dict.get? s'.srv key = Dict.get? alone.2.redis key) := by
  refine ⟨fun h => ?_, fun h hc => ?_, fun h hc hA hs i he hcl ho r hr => ?_⟩
  · have ht : d.truthy = false := by simp [Diff.truthy, h]
    simp [FromJob.clientWith, FromJob.client, cSyncFromR, checkDiffClass, cChooseDiff, ht]
  · have ht : d.truthy = true := by simp [Diff.truthy, h]
    have hc' : d.cls.bases.contains J.dc.id = false := by simpa using hc
    show Cl.bind (Cl.lift (checkDiffClass J.dc (some d))) _ J.mem = _
    have : (checkDiffClass J.dc (some d) : M V E Unit) = M.raise .diffClassMismatch := by simp only [checkDiffClass, ht, hc']; rfl
    rw [this]
    rfl
  · have ht : d.truthy = true := by simp [Diff.truthy, h]
    have hck : (checkDiffClass J.dc (some d) : M V E Unit) = M.pure () := by simp only [checkDiffClass, ht, hc]; rfl
    have hcl' : J.clientWith A sid d = Cl.bind (cPerformSync ⟨J.src, A, J.flags, d.cls, J.hooks, J.rlimit⟩ sid J.depth d) (fun changed =>
        Cl.bind (Cl.lift (if changed then M.emit (.syncComplete A.ref.id J.src.ref.id) else M.pure ())) fun _ => Cl.lift (M.pure d)) J.mem := by
      show Cl.bind (Cl.lift (checkDiffClass J.dc (some d))) _ J.mem = _
      rw [hck]
      simp only [cChooseDiff, ht]
      rfl
    have hseq : syncFrom (E := E) J.depth J.rlimit J.hooks A J.src J.dc J.flags (some d) = (performSync ⟨J.src, A, J.flags, d.cls, J.hooks, J.rlimit⟩ J.depth d >>= fun changed =>
        (if changed then M.emit (.syncComplete A.ref.id J.src.ref.id) else M.pure ()) >>= fun _ => M.pure d) := by
      funext w
      unfold syncFrom
      rw [hck]
      simp only [chooseDiff, ht]
      show (performSync _ _ d >>= _) w = _
      refine congrFun (congrArg (fun f => performSync _ _ d >>= f) (funext fun ch => ?_)) w
      cases ch <;> rfl
    have hrun : RunsAs (Cl.bind (cPerformSync ⟨J.src, A, J.flags, d.cls, J.hooks, J.rlimit⟩ sid J.depth d) (fun changed =>
        Cl.bind (Cl.lift (if changed then M.emit (.syncComplete A.ref.id J.src.ref.id) else M.pure ())) fun _ => Cl.lift (M.pure d)))
        (syncFrom J.depth J.rlimit J.hooks A J.src J.dc J.flags (some d)) := by
      rw [hseq]
      exact .bind (runs_performSync _ hA J.depth d) fun ch => .bind (.lift (by cases ch <;> exact fun _ _ => rfl)) fun _ => .lift fun _ _ => rfl
    have hab : Sends (Cmd.About (SyncKeys (J.ctx A) sid)) (J.clientWith A sid d) := by
      rw [hcl']
      refine Sends.bind (sync_about (S := ⟨J.src, A, J.flags, d.cls, J.hooks, J.rlimit⟩) hA hs J.depth d J.mem) fun q => ?_
      obtain ⟨r, w⟩ := q
      cases r with
      | error e => exact .ret _
      | ok ch => cases ch <;> exact .ret _
    obtain ⟨p', d', h1, h2⟩ := sees_exec he (p := J.clientWith A sid d) (d := s.srv) (K := SyncKeys (J.ctx A) sid) (i := i) ⟨by rw [hcl]; rfl, hab, ho, fun _ _ => rfl, fun h => by rw [hcl] at h; cases h⟩
    have hh := h2.here
    rw [hr] at hh
    cases hh
    rw [hcl'] at h1
    obtain ⟨e1, e2⟩ := hrun J.mem _ _ _ h1
    refine ⟨e1, fun d1 hd => ?_, fun key hk => by rw [h2.agree key (.inl hk), e2]; rfl⟩
    rw [hseq] at hd
    generalize J.mem.onServer s.srv = w0 at hd
    rcases hx : performSync ⟨J.src, A, J.flags, d.cls, J.hooks, J.rlimit⟩ J.depth d w0 with ⟨x, w⟩
    cases x with
    | error e => rw [M.bind_err hx] at hd; cases hd
    | ok ch => rw [M.bind_ok hx] at hd; cases ch <;> (cases hd; rfl)

end

end DS
