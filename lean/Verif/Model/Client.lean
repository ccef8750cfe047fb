import Verif.Model.Str
/-
The script for browsers (`NEUTRAL_JS`, src/constants.rs 356–488; js/neutral.min.js is the same on one line) that acts on what the BIF
`fetch` prints.

Modelled: which elements get listeners, which requests are sent, to which addresses, where the answers go, which events are
dispatched, and the body of a form.  Simplified: what an answer does to the document is any change (elements disappear, others
appear), which covers `innerHTML` and `outerHTML`; elements are numbered in the order in which they appeared, and `getElementById`
takes the first one; the texts on buttons and the lengths of the delays are left out; no answer replaces the buttons of a form that
stays; other scripts do not touch the classes.
-/
set_option autoImplicit false
namespace Nts.Js

/-- The four classes the script looks for (`neutral_obs`, `neutral_fev`, src/constants.rs 378–383, 453–476). -/
inductive Kind
  | form | auto | click | visible
  deriving DecidableEq

/-- Why a request is sent (the callers of `neutral_fetch` and `neutral_fetch_form`, src/constants.rs 373, 458, 465, 471). -/
inductive Cause
  | auto | click | visible | submit
  deriving DecidableEq

/-- An element as it appears (src/constants.rs 373, 401, 458): `id`, `data-url`, `action`, `data-wrap` (empty: none), its classes among the four, and whether it is a
form all of whose buttons that submit it carry `type="submit"`, one at least. -/
structure Elem where
  id : Str
  url : Str
  action : Str
  wrap : Str
  has : Kind → Bool
  buttons : Bool

/-- A request (src/constants.rs 387, 431): the element that asks for it, why, the address, and the element that is replaced by the answer (`none`: the one named
by `data-wrap` does not exist). -/
structure Req where
  node : Nat
  cause : Cause
  url : Str
  target : Option Nat
  deriving DecidableEq

/-- The page (src/constants.rs 356–488): the elements so far, which of them are in the document, their classes, their listeners, whether they are observed, the
submissions that wait for their delay, the requests sent so far, which of them have no answer yet, the events dispatched
(`true`: `neutralFetchCompleted`, `false`: `neutralFetchError`) with the number of the request, the forms whose buttons are disabled,
and the forms whose buttons show an error that goes away after a delay. -/
structure Page where
  elems : List Elem
  live : Nat → Bool
  cls : Nat → Kind → Bool
  submitL : Nat → Nat
  clickL : Nat → Nat
  observed : Nat → Bool
  waiting : List Req
  sent : List Req
  flying : Nat → Bool
  events : List (Bool × Nat)
  disabled : Nat → Bool
  restoring : List Nat

/-- `getElementById` (src/constants.rs 386, 407). -/
def Page.byId (p : Page) (id : Str) : Option Nat :=
  (List.range p.elems.length).find? (fun i => p.live i && decide ((p.elems[i]?).map (·.id) = some id))

/-- The element that is replaced (src/constants.rs 386, 407). -/
def Page.targetOf (p : Page) (i : Nat) (e : Elem) : Option Nat := if e.wrap.isEmpty then some i else p.byId e.wrap

/-- A request goes out (src/constants.rs 387, 431). -/
def Page.send (p : Page) (r : Req) : Page :=
  { p with
    sent := p.sent ++ [r]
    flying := fun k => if k = p.sent.length then true else p.flying k }

/-- `neutral_fetch(e, e.dataset.url, e.dataset.wrap)` up to the call of `fetch` (src/constants.rs 385–387). -/
def Page.get (p : Page) (i : Nat) (c : Cause) : Page :=
  match p.elems[i]? with
  | none => p
  | some e => p.send ⟨i, c, e.url, p.targetOf i e⟩

/-- `classList.remove` (src/constants.rs 380, 455, 464, 469). -/
def Page.unclass (p : Page) (i : Nat) (k : Kind) : Page :=
  { p with cls := fun j l => if j = i ∧ l = k then false else p.cls j l }

/-- `querySelectorAll` of a class (src/constants.rs 379, 454, 463, 468): the elements of the document that have it. -/
def Page.having (p : Page) (k : Kind) : List Nat := (List.range p.elems.length).filter (fun i => p.live i && p.cls i k)

/-- What the script does with one element of a class (src/constants.rs 379–382, 454–474). -/
def Page.setUp (p : Page) (k : Kind) (i : Nat) : Page :=
  let q := p.unclass i k
  match k with
  | .form => { q with submitL := fun j => if j = i then q.submitL j + 1 else q.submitL j }
  | .auto => q.get i .auto
  | .click => { q with clickL := fun j => if j = i then q.clickL j + 1 else q.clickL j }
  | .visible => { q with observed := fun j => if j = i then true else q.observed j }

/-- One of the loops of `neutral_fev` (src/constants.rs 379–382, 454–474). -/
def Page.all (p : Page) (k : Kind) : Page := (p.having k).foldl (fun q i => q.setUp k i) p

/-- `neutral_fev` (src/constants.rs 453–476). -/
def Page.fev (p : Page) : Page := (((p.all .form).all .auto).all .click).all .visible

/-- A change of the document (src/constants.rs 390–391, 395, 439–440): some elements go, others come with their classes. -/
def Page.change (p : Page) (keep : Nat → Bool) (new : List Elem) : Page :=
  { p with
    elems := p.elems ++ new
    live := fun i => if i < p.elems.length then p.live i && keep i else decide (i < p.elems.length + new.length)
    cls := fun i => if i < p.elems.length then p.cls i else
      match new[i - p.elems.length]? with
      | some e => e.has
      | none => fun _ => false }

/-- `window.dispatchEvent` (src/constants.rs 392, 396, 441, 444); the listeners (481–486) run `neutral_fev`. -/
def Page.event (p : Page) (ok : Bool) (r : Nat) : Page := Page.fev { p with events := p.events ++ [(ok, r)] }

/-- Request `r` is over (src/constants.rs 388, 394, 437, 443). -/
def Page.land (p : Page) (r : Nat) : Page := { p with flying := fun k => if k = r then false else p.flying k }

/-- What can happen (the handlers, src/constants.rs 369–376, 388–397, 430–450, 456–486). -/
inductive Act
  /-- `DOMContentLoaded` -/
  | loaded
  /-- the user clicks on an element -/
  | click (i : Nat)
  /-- the user submits a form -/
  | submit (i : Nat)
  /-- an observed element becomes visible -/
  | seen (i : Nat)
  /-- the delay of the first waiting submission is over -/
  | timer
  /-- a request gets an answer, which changes the document -/
  | answer (r : Nat) (keep : Nat → Bool) (new : List Elem)
  /-- a request fails, and the element that waits for it shows an error -/
  | fails (r : Nat) (keep : Nat → Bool)
  /-- the error on the buttons of a form, the first one of those that show one, goes away -/
  | restore

/-- `n` requests of an element, one for each listener (src/constants.rs 470–473). -/
def Page.gets (p : Page) (i : Nat) (c : Cause) : Nat → Page
  | 0 => p
  | n + 1 => (p.get i c).gets i c n

/-- `n` submissions of a form, one for each listener (src/constants.rs 456–460, and `neutral_fetch_form` up to
`setTimeout`, 400–430). -/
def Page.posts (p : Page) (i : Nat) (e : Elem) : Nat → Page
  | 0 => p
  | n + 1 => Page.posts
      { p with
        disabled := fun j => if j = i then true else p.disabled j
        waiting := p.waiting ++ [⟨i, .submit, e.action, p.targetOf i e⟩] } i e n

/-- The submission of a form failed: the event, and the error on the buttons (src/constants.rs 443–449; the event is dispatched before
the delay starts, which nothing can tell). -/
def Page.formError (p : Page) (r : Nat) (i : Nat) : Page :=
  Page.event { p.land r with restoring := p.restoring ++ [i] } false r

/-- One step; `none` if it is not possible (src/constants.rs 369–376, 388–397, 430–450, 456–486).  The handlers of `neutral_fetch` and
`neutral_fetch_form`: an answer or a failure for an
element that does not exist is an exception; the first function then dispatches nothing (its `catch` fails, too), the second an
error. -/
def step (p : Page) : Act → Option Page
  | .loaded => some p.fev
  | .click i => if p.live i then some (p.gets i .click (p.clickL i)) else none
  | .submit i => match p.elems[i]? with
    | none => none
    | some e => if p.live i && !(e.buttons && p.disabled i) then some (p.posts i e (p.submitL i)) else none
  | .seen i => if p.live i && p.observed i then
      some (({ p with observed := fun j => if j = i then false else p.observed j }).get i .visible)
    else none
  | .timer => match p.waiting with
    | [] => none
    | r :: l => some (Page.send { p with waiting := l } r)
  | .answer r keep new => match p.sent[r]? with
    | none => none
    | some q =>
      if p.flying r then
        match q.target with
        | some _ => some (((p.land r).change keep new).event true r)
        | none => if q.cause = .submit then some (p.formError r q.node) else some (p.land r)
      else none
  | .fails r keep => match p.sent[r]? with
    | none => none
    | some q =>
      if p.flying r then
        if q.cause = .submit then some (p.formError r q.node)
        else match q.target with
        | some _ => some (((p.land r).change keep []).event false r)
        | none => some (p.land r)
      else none
  | .restore => match p.restoring with
    | [] => none
    | i :: l => some { p with
        restoring := l
        disabled := fun j => if j = i then false else p.disabled j }

/-- A history (any order of the events the handlers of src/constants.rs 356–488 wait for). -/
inductive Runs : Page → List Act → Page → Prop
  | nil (p : Page) : Runs p [] p
  | snoc {p p1 p2 : Page} {l : List Act} {a : Act} : Runs p l p1 → step p1 a = some p2 → Runs p (l ++ [a]) p2

/-- A page when the script starts (src/constants.rs 356–368): elements with their classes, no listener, nothing observed or sent. -/
def start (l : List Elem) : Page :=
  ⟨l, fun i => decide (i < l.length), fun i => match l[i]? with
    | some e => e.has
    | none => fun _ => false, fun _ => 0, fun _ => 0, fun _ => false, [], [], fun _ => false, [], fun _ => false, []⟩

/-! ### the body of a form -/

/-- The types of controls that matter (src/constants.rs 415, 422). -/
inductive Ctl
  | file | box | button | other
  deriving DecidableEq

/-- A control of a form (src/constants.rs 410–428): its name, type (`box`: check boxes and radio buttons), value, whether it is checked, whether it is
disabled. -/
structure Control where
  name : Str
  type : Ctl
  value : Str
  checked : Bool
  disabled : Bool

/-- `new FormData(form)` (src/constants.rs 408, 429; the HTML standard): the enabled controls with a name, without buttons and unchecked boxes. -/
def formData (l : List Control) : List (Str × Str) :=
  (l.filter (fun c => !c.disabled && !c.name.isEmpty && decide (c.type ≠ .button) && (decide (c.type ≠ .box) || c.checked))).map
    (fun c => (c.name, c.value))

/-- What the loop over `f.elements` adds with `dt.append` (src/constants.rs 410–428). -/
def appended (l : List Control) : List (Str × Str) :=
  (l.filter (fun c => !c.name.isEmpty && decide (c.type ≠ .file) && !(contains c!"[]" c.name) &&
    (decide (c.type ≠ .box) || c.checked))).map (fun c => (c.name, c.value))

/-- Does the loop find a file (`has_file`, src/constants.rs 409–418)? -/
def hasFile (l : List Control) : Bool := l.any (fun c => !c.name.isEmpty && decide (c.type = .file))

/-- The body that is sent (src/constants.rs 408–436): with a file the form data and what was added to them, otherwise
`new URLSearchParams(new FormData(f))`. -/
def body (l : List Control) : List (Str × Str) := if hasFile l then formData l ++ appended l else formData l

end Nts.Js
