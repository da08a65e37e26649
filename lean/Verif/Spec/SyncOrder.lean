import Verif.Spec.DiffOrder
import Verif.Spec.Sync
/-! # The calls of a sync, read off the contents of the two adapters -/

namespace DS
variable {V : Type} [PyVal V]

/-- The attributes that both objects have with different values, in the order of the second object, with the values of the first. -/
def changes (s d : Model V) : Dict V :=
  (Dict.keys d.attrs).filterMap fun k =>
    match Dict.get? s.attrs k, Dict.get? d.attrs k with
    | some a, some b => if PyVal.eq a b then none else some (k, a)
    | _, _ => none

/-- The calls for places one after the other.  Where both sides have an object and they differ: an update call with the changes.  Where only the source
has one: a create call with its identifiers and attributes.  Where only the destination has one: a delete call.  After this call come those for the
places below, before those for the next place; but those below an object to be deleted that is flagged NATURAL_DELETION_ORDER come before its call, and there
are none below one flagged SKIP_CHILDREN_ON_DELETE. -/
inductive CallsFor (flags : Nat) (S D : Snap V) : List (Pos V) → List (CrudCall V) → Prop where
  | nil : CallsFor flags S D [] []
  | same {p l s d cs cs'} : p.src = some s → p.dst = some d → changes s d = [] →
      CallsFor flags S D (visible flags (childPlaces S D p)) cs → CallsFor flags S D l cs' → CallsFor flags S D (p :: l) (cs ++ cs')
  | update {p l s d cs cs'} : p.src = some s → p.dst = some d → changes s d ≠ [] →
      CallsFor flags S D (visible flags (childPlaces S D p)) cs → CallsFor flags S D l cs' →
      CallsFor flags S D (p :: l) (.update p.type p.uid (changes s d) :: cs ++ cs')
  | create {p l s cs cs'} : p.src = some s → p.dst = none →
      CallsFor flags S D (visible flags (childPlaces S D p)) cs → CallsFor flags S D l cs' →
      CallsFor flags S D (p :: l) (.create p.type s.identifiers s.attrs :: cs ++ cs')
  | delete {p l d cs cs'} : p.src = none → p.dst = some d → flagOn d.flags MF.SKIP_CHILDREN_ON_DELETE = false → flagOn d.flags MF.NATURAL_DELETION_ORDER = false →
      CallsFor flags S D (visible flags (childPlaces S D p)) cs → CallsFor flags S D l cs' →
      CallsFor flags S D (p :: l) (.delete p.type p.uid :: cs ++ cs')
  | deleteLast {p l d cs cs'} : p.src = none → p.dst = some d → flagOn d.flags MF.SKIP_CHILDREN_ON_DELETE = false → flagOn d.flags MF.NATURAL_DELETION_ORDER = true →
      CallsFor flags S D (visible flags (childPlaces S D p)) cs → CallsFor flags S D l cs' →
      CallsFor flags S D (p :: l) (cs ++ .delete p.type p.uid :: cs')
  | deleteAlone {p l d cs'} : p.src = none → p.dst = some d → flagOn d.flags MF.SKIP_CHILDREN_ON_DELETE = true →
      CallsFor flags S D l cs' → CallsFor flags S D (p :: l) (.delete p.type p.uid :: cs')

/-- The call for a place. -/
def callAt (p : Pos V) : Option (CrudCall V) :=
  match p.src, p.dst with
  | some s, some d => if (changes s d).isEmpty then none else some (.update p.type p.uid (changes s d))
  | some s, none => some (.create p.type s.identifiers s.attrs)
  | none, some _ => some (.delete p.type p.uid)
  | none, none => none

/-- Only the destination has an object there, and it carries the flag. -/
def DeletesWith (b : Nat) (p : Pos V) : Prop := p.src = none ∧ ∃ d, p.dst = some d ∧ flagOn d.flags b = true

/-- The calls for places one after the other, together with their outcomes, whatever these are.  Below the place of a call that did not bring an object (it
raised or returned `None`) there are no calls, unless they were made before. -/
inductive RunFor (flags : Nat) (S D : Snap V) : List (Pos V) → List (CrudCall V × Outcome) → Prop where
  | nil : RunFor flags S D [] []
  | same {p l cs cs'} : callAt p = none → RunFor flags S D (visible flags (childPlaces S D p)) cs → RunFor flags S D l cs' → RunFor flags S D (p :: l) (cs ++ cs')
  | call {p l c out cs cs'} : callAt p = some c → ¬ DeletesWith MF.SKIP_CHILDREN_ON_DELETE p → ¬ DeletesWith MF.NATURAL_DELETION_ORDER p → out.result = .object →
      RunFor flags S D (visible flags (childPlaces S D p)) cs → RunFor flags S D l cs' → RunFor flags S D (p :: l) ((c, out) :: cs ++ cs')
  | failed {p l c out cs'} : callAt p = some c → ¬ DeletesWith MF.SKIP_CHILDREN_ON_DELETE p → ¬ DeletesWith MF.NATURAL_DELETION_ORDER p → out.result ≠ .object →
      RunFor flags S D l cs' → RunFor flags S D (p :: l) ((c, out) :: cs')
  | last {p l c out cs cs'} : callAt p = some c → ¬ DeletesWith MF.SKIP_CHILDREN_ON_DELETE p → DeletesWith MF.NATURAL_DELETION_ORDER p →
      RunFor flags S D (visible flags (childPlaces S D p)) cs → RunFor flags S D l cs' → RunFor flags S D (p :: l) (cs ++ (c, out) :: cs')
  | alone {p l c out cs'} : callAt p = some c → DeletesWith MF.SKIP_CHILDREN_ON_DELETE p → RunFor flags S D l cs' → RunFor flags S D (p :: l) ((c, out) :: cs')

/-- The same places, the types in the same order: places of one type may have changed places. -/
def Arranged (l l' : List (Pos V)) : Prop := l'.Perm l ∧ l'.map Pos.type = l.map Pos.type

/-- The same for diff classes with order methods: at each place those below it are taken in some arrangement of their order. -/
inductive RunAny (flags : Nat) (S D : Snap V) : List (Pos V) → List (CrudCall V × Outcome) → Prop where
  | nil : RunAny flags S D [] []
  | same {p l q cs cs'} : callAt p = none → Arranged (visible flags (childPlaces S D p)) q → RunAny flags S D q cs → RunAny flags S D l cs' →
      RunAny flags S D (p :: l) (cs ++ cs')
  | call {p l q c out cs cs'} : callAt p = some c → ¬ DeletesWith MF.SKIP_CHILDREN_ON_DELETE p → ¬ DeletesWith MF.NATURAL_DELETION_ORDER p → out.result = .object →
      Arranged (visible flags (childPlaces S D p)) q → RunAny flags S D q cs → RunAny flags S D l cs' → RunAny flags S D (p :: l) ((c, out) :: cs ++ cs')
  | failed {p l c out cs'} : callAt p = some c → ¬ DeletesWith MF.SKIP_CHILDREN_ON_DELETE p → ¬ DeletesWith MF.NATURAL_DELETION_ORDER p → out.result ≠ .object →
      RunAny flags S D l cs' → RunAny flags S D (p :: l) ((c, out) :: cs')
  | last {p l q c out cs cs'} : callAt p = some c → ¬ DeletesWith MF.SKIP_CHILDREN_ON_DELETE p → DeletesWith MF.NATURAL_DELETION_ORDER p →
      Arranged (visible flags (childPlaces S D p)) q → RunAny flags S D q cs → RunAny flags S D l cs' → RunAny flags S D (p :: l) (cs ++ (c, out) :: cs')
  | alone {p l c out cs'} : callAt p = some c → DeletesWith MF.SKIP_CHILDREN_ON_DELETE p → RunAny flags S D l cs' → RunAny flags S D (p :: l) ((c, out) :: cs')

end DS
