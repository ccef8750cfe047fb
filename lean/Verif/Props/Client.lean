import Verif.Model.Client
import Verif.Lemmas.Str
/-
The script for browsers: C99 (each element is set up once), C100 (each request gets its event), C101 (the body of a form),
C102 (one submission at a time).
-/
set_option autoImplicit false
namespace Nts.Js

/-! ### the words of the claims -/

/-- The number of requests an element has sent for a reason. -/
def asked (p : Page) (i : Nat) (c : Cause) : Nat := p.sent.countP (fun r => decide (r.node = i) && decide (r.cause = c))

/-- Did the element appear with the class? -/
def Given (p : Page) (i : Nat) (k : Kind) : Prop := ∃ e, p.elems[i]? = some e ∧ e.has k = true

/-- The number of clicks on an element in a history. -/
def clicks (i : Nat) (l : List Act) : Nat := l.countP (fun a => match a with
  | .click j => decide (j = i)
  | _ => false)

/-- The number of submissions of a form by the user in a history. -/
def submits (i : Nat) (l : List Act) : Nat := l.countP (fun a => match a with
  | .submit j => decide (j = i)
  | _ => false)

/-- Has the page been loaded? -/
def wasLoaded (l : List Act) : Bool := l.any (fun a => match a with
  | .loaded => true
  | _ => false)

/-- The class that goes with a reason. -/
def kindOf : Cause → Kind
  | .auto => .auto
  | .click => .click
  | .visible => .visible
  | .submit => .form

/-- The submissions of a form that are under way: they wait for their delay, or have no answer yet. -/
def underWay (p : Page) (i : Nat) : Nat :=
  p.waiting.countP (fun r => decide (r.node = i)) +
  (List.range p.sent.length).countP (fun k => p.flying k && (p.sent[k]?).any (fun r => decide (r.node = i) && decide (r.cause = .submit)))

/-! ### what the script does to the page -/

def bit (b : Bool) : Nat := if b then 1 else 0
def given (p : Page) (i : Nat) (k : Kind) : Bool := (p.elems[i]?).any (fun e => e.has k)

theorem given_iff (p : Page) (i : Nat) (k : Kind) : given p i k = true ↔ Given p i k := by
  unfold given Given
  cases p.elems[i]? <;> simp

/-- What `neutral_fev` leaves alone, and what it sends. -/
structure Quiet (p q : Page) : Prop where
  elems : q.elems = p.elems
  live : q.live = p.live
  waiting : q.waiting = p.waiting
  events : q.events = p.events
  disabled : q.disabled = p.disabled
  restoring : q.restoring = p.restoring
  sent : ∃ l, q.sent = p.sent ++ l ∧ ∀ r ∈ l, ∃ e, p.elems[r.node]? = some e ∧ r.cause = .auto ∧ r.url = e.url ∧
    r.target = p.targetOf r.node e
  flying : ∀ k, q.flying k = if k < p.sent.length then p.flying k else
    if k < q.sent.length then true else p.flying k

theorem Quiet.refl (p : Page) : Quiet p p :=
  ⟨rfl, rfl, rfl, rfl, rfl, rfl, ⟨[], by simp⟩, fun k => by split <;> rfl⟩

theorem targetOf_congr {p q : Page} (he : q.elems = p.elems) (hl : q.live = p.live) (i : Nat) (e : Elem) :
    q.targetOf i e = p.targetOf i e := by
  unfold Page.targetOf Page.byId
  rw [he, hl]

theorem Quiet.trans {p q r : Page} (h : Quiet p q) (g : Quiet q r) : Quiet p r := by
  obtain ⟨l, hl, hr⟩ := h.sent
  obtain ⟨m, hm, hs⟩ := g.sent
  refine ⟨g.elems.trans h.elems, g.live.trans h.live, g.waiting.trans h.waiting, g.events.trans h.events,
    g.disabled.trans h.disabled, g.restoring.trans h.restoring, ⟨l ++ m, by rw [hm, hl]; simp, ?_⟩, ?_⟩
  · intro x hx
    rcases List.mem_append.1 hx with hx | hx
    · exact hr x hx
    · obtain ⟨e, he, h1, h2, h3⟩ := hs x hx
      rw [h.elems] at he
      rw [targetOf_congr h.elems h.live] at h3
      exact ⟨e, he, h1, h2, h3⟩
  · intro k
    rw [g.flying k, h.flying k]
    have h1 : q.sent.length = p.sent.length + l.length := by rw [hl]; simp
    have h2 : r.sent.length = q.sent.length + m.length := by rw [hm]; simp
    by_cases a : k < p.sent.length
    · have : k < q.sent.length := by omega
      simp [a, this]
    · by_cases b : k < q.sent.length
      · have : k < r.sent.length := by omega
        simp [a, b, this]
      · simp [a, b]

theorem setUp_cls (p : Page) (k : Kind) (i : Nat) :
    (p.setUp k i).cls = fun j l => if j = i ∧ l = k then false else p.cls j l := by
  cases k <;> simp only [Page.setUp, Page.unclass, Page.get]
  split <;> rfl

theorem setUp_quiet (p : Page) (k : Kind) (i : Nat) : Quiet p (p.setUp k i) := by
  cases k <;> simp only [Page.setUp, Page.unclass]
  · exact ⟨rfl, rfl, rfl, rfl, rfl, rfl, ⟨[], by simp⟩, fun k => by split <;> rfl⟩
  · unfold Page.get
    cases he : p.elems[i]? with
    | none => exact ⟨rfl, rfl, rfl, rfl, rfl, rfl, ⟨[], by simp [he]⟩, fun k => by simp [he]; intros; omega⟩
    | some e =>
      simp only [he]
      refine ⟨rfl, rfl, rfl, rfl, rfl, rfl, ⟨[⟨i, .auto, e.url, p.targetOf i e⟩], rfl, ?_⟩, ?_⟩
      · intro r hr
        rw [List.mem_singleton] at hr
        subst hr
        exact ⟨e, he, rfl, rfl, rfl⟩
      · intro k
        simp only [Page.send, List.length_append, List.length_singleton]
        by_cases a : k < p.sent.length
        · have : k ≠ p.sent.length := by omega
          simp [a, this]
        · by_cases b : k = p.sent.length
          · simp [b]
          · have : ¬ k < p.sent.length + 1 := by omega
            simp [a, b, this]
  · exact ⟨rfl, rfl, rfl, rfl, rfl, rfl, ⟨[], by simp⟩, fun k => by split <;> rfl⟩
  · exact ⟨rfl, rfl, rfl, rfl, rfl, rfl, ⟨[], by simp⟩, fun k => by split <;> rfl⟩

/-- The books of the script: each class an element came with is still there, or has had its effect once. -/
structure Books (p : Page) : Prop where
  auto : ∀ i, asked p i .auto + bit (p.cls i .auto) = bit (given p i .auto)
  visible : ∀ i, asked p i .visible + bit (p.observed i) + bit (p.cls i .visible) = bit (given p i .visible)
  click : ∀ i, p.clickL i + bit (p.cls i .click) = bit (given p i .click)
  form : ∀ i, p.submitL i + bit (p.cls i .form) = bit (given p i .form)
  live : ∀ i, p.live i = true → i < p.elems.length

theorem asked_send (p : Page) (r : Req) (i : Nat) (c : Cause) :
    asked (p.send r) i c = asked p i c + bit (decide (r.node = i) && decide (r.cause = c)) := by
  unfold asked Page.send bit
  simp only [List.countP_append, List.countP_cons, List.countP_nil, Nat.zero_add]

theorem setUp_books (p : Page) (k : Kind) (i : Nat) (h : Books p) (hc : p.cls i k = true) : Books (p.setUp k i) := by
  have hq := setUp_quiet p k i
  have hg : ∀ j l, given (p.setUp k i) j l = given p j l := fun j l => by unfold given; rw [hq.elems]
  have hl : ∀ j, (p.setUp k i).live j = true → j < (p.setUp k i).elems.length := by
    rw [hq.live, hq.elems]
    exact h.live
  refine ⟨fun j => ?_, fun j => ?_, fun j => ?_, fun j => ?_, hl⟩
  · rw [hg, setUp_cls, ← h.auto j]
    cases k
    · simp [Page.setUp, Page.unclass, asked]
    · have hgi : given p i .auto = true := by
        have := h.auto i
        rw [hc] at this
        cases hx : given p i .auto
        · rw [hx] at this
          simp [bit] at this
        · rfl
      obtain ⟨e, he, hk⟩ := (given_iff p i .auto).1 hgi
      have : p.setUp .auto i = (p.unclass i .auto).send ⟨i, .auto, e.url, (p.unclass i .auto).targetOf i e⟩ := by
        show (p.unclass i .auto).get i .auto = _
        unfold Page.get
        have : (p.unclass i .auto).elems[i]? = some e := he
        rw [this]
      rw [this, asked_send]
      have ha : asked (p.unclass i .auto) j .auto = asked p j .auto := rfl
      rw [ha]
      by_cases hj : j = i
      · subst hj
        simp [bit, hc]
      · have : ¬ i = j := fun x => hj x.symm
        simp [bit, hj, this]
    · simp [Page.setUp, Page.unclass, asked]
    · simp [Page.setUp, Page.unclass, asked]
  · rw [hg, setUp_cls, ← h.visible j]
    cases k
    · simp [Page.setUp, Page.unclass, asked]
    · have : asked (p.setUp .auto i) j .visible = asked p j .visible := by
        unfold Page.setUp Page.get
        dsimp only
        split
        · rfl
        · rw [asked_send]
          simp [bit, asked, Page.unclass]
      have ho : (p.setUp .auto i).observed j = p.observed j := by
        unfold Page.setUp Page.get
        dsimp only
        split <;> rfl
      rw [this, ho]
      simp
    · simp [Page.setUp, Page.unclass, asked]
    · have hv := h.visible i
      by_cases hj : j = i
      · subst hj
        rw [hc] at hv
        have hz : p.observed j = false := by
          cases hx : p.observed j
          · rfl
          · rw [hx] at hv
            cases hy : given p j .visible <;> rw [hy] at hv <;> simp [bit] at hv
        simp [Page.setUp, Page.unclass, asked, bit, hc, hz]
      · simp [Page.setUp, Page.unclass, asked, hj]
  · rw [hg, setUp_cls, ← h.click j]
    cases k
    · simp [Page.setUp, Page.unclass]
    · have : (p.setUp .auto i).clickL j = p.clickL j := by
        unfold Page.setUp Page.get
        dsimp only
        split <;> rfl
      rw [this]
      simp
    · by_cases hj : j = i
      · subst hj
        simp [Page.setUp, Page.unclass, bit, hc]
      · simp [Page.setUp, Page.unclass, hj]
    · simp [Page.setUp, Page.unclass]
  · rw [hg, setUp_cls, ← h.form j]
    cases k
    · by_cases hj : j = i
      · subst hj
        simp [Page.setUp, Page.unclass, bit, hc]
      · simp [Page.setUp, Page.unclass, hj]
    · have : (p.setUp .auto i).submitL j = p.submitL j := by
        unfold Page.setUp Page.get
        dsimp only
        split <;> rfl
      rw [this]
      simp
    · simp [Page.setUp, Page.unclass]
    · simp [Page.setUp, Page.unclass]

theorem fold_spec (k : Kind) (L : List Nat) : ∀ (p : Page), L.Nodup → (∀ i ∈ L, p.cls i k = true) →
    Quiet p (L.foldl (fun q i => q.setUp k i) p) ∧ (Books p → Books (L.foldl (fun q i => q.setUp k i) p)) ∧
    (∀ i l, (L.foldl (fun q i => q.setUp k i) p).cls i l = if i ∈ L ∧ l = k then false else p.cls i l) := by
  induction L with
  | nil => exact fun p _ _ => ⟨Quiet.refl p, id, by simp⟩
  | cons a L ih =>
    intro p hn hc
    obtain ⟨ha, hn'⟩ := List.nodup_cons.1 hn
    have hc' : ∀ i ∈ L, (p.setUp k a).cls i k = true := by
      intro i hi
      rw [setUp_cls]
      have : i ≠ a := fun h => ha (h ▸ hi)
      simp [this, hc i (List.mem_cons_of_mem _ hi)]
    obtain ⟨h1, h2, h3⟩ := ih (p.setUp k a) hn' hc'
    refine ⟨(setUp_quiet p k a).trans h1, fun hb => h2 (setUp_books p k a hb (hc a (List.mem_cons_self ..))), fun i l => ?_⟩
    show (L.foldl (fun q i => q.setUp k i) (p.setUp k a)).cls i l = _
    rw [h3, setUp_cls]
    by_cases x : i ∈ L <;> by_cases y : l = k <;> by_cases z : i = a <;> simp [x, y, z]

theorem all_spec (k : Kind) (p : Page) :
    Quiet p (p.all k) ∧ (Books p → Books (p.all k)) ∧
    (∀ i l, (p.all k).cls i l = if i ∈ p.having k ∧ l = k then false else p.cls i l) := by
  refine fold_spec k (p.having k) p ?_ ?_
  · exact List.Pairwise.filter _ List.nodup_range
  · intro i hi
    unfold Page.having at hi
    simp at hi
    exact hi.2.2

theorem all_cls (k : Kind) (p : Page) (i : Nat) (l : Kind) :
    ((p.all k).cls i l = true → p.cls i l = true) ∧ (i < p.elems.length → p.live i = true → (p.all k).cls i k = false) := by
  have h := (all_spec k p).2.2
  refine ⟨fun hx => ?_, fun hlt hl => ?_⟩
  · rw [h i l] at hx
    split at hx
    · simp at hx
    · exact hx
  · rw [h i k]
    cases hc : p.cls i k
    · simp
    · have : i ∈ p.having k := by
        unfold Page.having
        simp [hlt, hl, hc]
      simp [this]

theorem fev_spec (p : Page) : Quiet p p.fev ∧ (Books p → Books p.fev) ∧
    (∀ i l, i < p.elems.length → p.live i = true → p.fev.cls i l = false) := by
  unfold Page.fev
  obtain ⟨p1, h1⟩ : ∃ q, q = p.all .form := ⟨_, rfl⟩
  obtain ⟨p2, h2⟩ : ∃ q, q = p1.all .auto := ⟨_, rfl⟩
  obtain ⟨p3, h3⟩ : ∃ q, q = p2.all .click := ⟨_, rfl⟩
  obtain ⟨p4, h4⟩ : ∃ q, q = p3.all .visible := ⟨_, rfl⟩
  rw [← h1, ← h2, ← h3, ← h4]
  have q1 := (all_spec .form p).1
  have q2 := (all_spec .auto p1).1
  have q3 := (all_spec .click p2).1
  have q4 := (all_spec .visible p3).1
  have b1 := (all_spec .form p).2.1
  have b2 := (all_spec .auto p1).2.1
  have b3 := (all_spec .click p2).2.1
  have b4 := (all_spec .visible p3).2.1
  rw [← h1] at q1 b1
  rw [← h2] at q2 b2
  rw [← h3] at q3 b3
  rw [← h4] at q4 b4
  have q12 := q1.trans q2
  have q13 := q12.trans q3
  refine ⟨q13.trans q4, fun h => b4 (b3 (b2 (b1 h))), fun i l hlt hl => ?_⟩
  have c1 := all_cls .form p i
  have c2 := all_cls .auto p1 i
  have c3 := all_cls .click p2 i
  have c4 := all_cls .visible p3 i
  rw [← h1] at c1
  rw [← h2] at c2
  rw [← h3] at c3
  rw [← h4] at c4
  have hF := (c1 .form).2 hlt hl
  have hA := (c2 .auto).2 (by rw [q1.elems]; exact hlt) (by rw [q1.live]; exact hl)
  have hC := (c3 .click).2 (by rw [q12.elems]; exact hlt) (by rw [q12.live]; exact hl)
  have hV := (c4 .visible).2 (by rw [q13.elems]; exact hlt) (by rw [q13.live]; exact hl)
  cases hx : p4.cls i l
  · rfl
  · exfalso
    have x3 := (c4 l).1 hx
    have x2 := (c3 l).1 x3
    have x1 := (c2 l).1 x2
    cases l
    · rw [hF] at x1; cases x1
    · rw [hA] at x2; cases x2
    · rw [hC] at x3; cases x3
    · rw [hV] at hx; cases hx

attribute [local irreducible] Page.fev

/-! ### the invariant -/

/-- A request belongs to an element that asks for it. -/
def ReqOk (p : Page) (r : Req) : Prop :=
  ∃ e, p.elems[r.node]? = some e ∧ e.has (kindOf r.cause) = true ∧ r.url = (if r.cause = .submit then e.action else e.url) ∧
    (r.target = none → e.wrap ≠ [])

/-- A request whose answer has nowhere to go and that tells nobody. -/
def lost (p : Page) (k : Nat) : Bool :=
  (p.sent[k]?).any (fun r => decide (r.target = none) && decide (r.cause ≠ .submit))

structure Inv (p : Page) : Prop extends Books p where
  req : ∀ r ∈ p.sent, ReqOk p r
  wait : ∀ r ∈ p.waiting, ReqOk p r ∧ r.cause = .submit
  fly : ∀ k, p.flying k = true → k < p.sent.length
  ev : ∀ k, p.events.countP (fun e => decide (e.2 = k)) = bit (decide (k < p.sent.length) && !p.flying k && !lost p k)
  rest : ∀ i ∈ p.restoring, i < p.elems.length
  one : ∀ i e, p.elems[i]? = some e → e.buttons = true → underWay p i + p.restoring.count i ≤ bit (p.disabled i)

/-- Counting below a bound. -/
def cnt (n : Nat) (f : Nat → Bool) : Nat := (List.range n).countP f

theorem cnt_succ (n : Nat) (f : Nat → Bool) : cnt (n + 1) f = cnt n f + bit (f n) := by
  unfold cnt bit
  rw [List.range_succ, List.countP_append]
  simp [List.countP_cons]

theorem cnt_congr (n : Nat) (f g : Nat → Bool) (h : ∀ k, k < n → f k = g k) : cnt n f = cnt n g := by
  induction n with
  | zero => rfl
  | succ n ih => rw [cnt_succ, cnt_succ, ih (fun k hk => h k (by omega)), h n (by omega)]

theorem cnt_grow (n d : Nat) (f : Nat → Bool) (h : ∀ k, n ≤ k → k < n + d → f k = false) : cnt (n + d) f = cnt n f := by
  induction d with
  | zero => rfl
  | succ d ih =>
    rw [← Nat.add_assoc, cnt_succ, ih (fun k h1 h2 => h k h1 (by omega)), h (n + d) (by omega) (by omega)]
    rfl

theorem cnt_drop (n r : Nat) (f g : Nat → Bool) (hr : r < n) (h : ∀ k, k ≠ r → g k = f k) (hg : g r = false) :
    cnt n f = cnt n g + bit (f r) := by
  induction n with
  | zero => omega
  | succ n ih =>
    rw [cnt_succ, cnt_succ]
    by_cases x : r = n
    · subst x
      rw [hg, cnt_congr r g f (fun k hk => h k (by omega))]
      rfl
    · rw [ih (by omega), h n (fun y => x y.symm)]
      omega

/-- Is request `k` a submission of form `i` without an answer? -/
def flies (p : Page) (i k : Nat) : Bool :=
  p.flying k && (p.sent[k]?).any (fun r => decide (r.node = i) && decide (r.cause = .submit))

theorem underWay_eq (p : Page) (i : Nat) :
    underWay p i = p.waiting.countP (fun r => decide (r.node = i)) + cnt p.sent.length (flies p i) := rfl

theorem quiet_sent {p q : Page} (h : Quiet p q) (k : Nat) (hk : k < p.sent.length) : q.sent[k]? = p.sent[k]? := by
  obtain ⟨l, hl, -⟩ := h.sent
  rw [hl, List.getElem?_append_left hk]

theorem quiet_new {p q : Page} (h : Quiet p q) (k : Nat) (hk : p.sent.length ≤ k) (r : Req) (hr : q.sent[k]? = some r) :
    ∃ e, p.elems[r.node]? = some e ∧ r.cause = .auto ∧ r.url = e.url ∧ r.target = p.targetOf r.node e := by
  obtain ⟨l, hl, hx⟩ := h.sent
  rw [hl, List.getElem?_append_right hk] at hr
  exact hx r (List.mem_of_getElem? hr)

theorem quiet_len {p q : Page} (h : Quiet p q) : p.sent.length ≤ q.sent.length := by
  obtain ⟨l, hl, -⟩ := h.sent
  rw [hl]
  simp

theorem targetOf_none (p : Page) (i : Nat) (e : Elem) (h : p.targetOf i e = none) : e.wrap ≠ [] := by
  unfold Page.targetOf at h
  split at h
  · cases h
  · next hx =>
    intro hw
    rw [hw] at hx
    exact hx rfl

theorem asked_pos (p : Page) (r : Req) (h : r ∈ p.sent) : 1 ≤ asked p r.node r.cause := by
  unfold asked
  exact List.countP_pos_iff.2 ⟨r, h, by simp⟩

theorem bit_le (b : Bool) : bit b ≤ 1 := by cases b <;> decide
theorem bit_pos {b : Bool} (h : 1 ≤ bit b) : b = true := by cases b <;> simp_all [bit]

theorem quiet_underWay {p q : Page} (hq : Quiet p q) (i : Nat) : underWay q i = underWay p i := by
  have hlen := quiet_len hq
  rw [underWay_eq, underWay_eq, hq.waiting]
  have hd : q.sent.length = p.sent.length + (q.sent.length - p.sent.length) := by omega
  have e1 : cnt q.sent.length (flies q i) = cnt p.sent.length (flies q i) := by
    rw [hd]
    refine cnt_grow _ _ _ (fun k h1 h2 => ?_)
    unfold flies
    cases hs : q.sent[k]? with
    | none => simp
    | some r =>
      obtain ⟨e, -, hc, -⟩ := quiet_new hq k h1 r hs
      simp [hc]
  have e2 : cnt p.sent.length (flies q i) = cnt p.sent.length (flies p i) := by
    refine cnt_congr _ _ _ (fun k hk => ?_)
    unfold flies
    rw [quiet_sent hq k hk, hq.flying]
    simp [hk]
  rw [e1, e2]

theorem send_underWay (p : Page) (r : Req) (i : Nat) :
    underWay (p.send r) i = underWay p i + bit (decide (r.node = i) && decide (r.cause = .submit)) := by
  have hlen : (p.send r).sent.length = p.sent.length + 1 := by simp [Page.send]
  have hfl : ∀ k, (p.send r).flying k = if k = p.sent.length then true else p.flying k := fun k => rfl
  have hold : ∀ k, k < p.sent.length → (p.send r).sent[k]? = p.sent[k]? := by
    intro k hk
    show (p.sent ++ [r])[k]? = _
    rw [List.getElem?_append_left hk]
  rw [underWay_eq, underWay_eq, hlen, cnt_succ]
  rw [cnt_congr p.sent.length (flies (p.send r) i) (flies p i) (fun k hk => by
    unfold flies
    have : k ≠ p.sent.length := by omega
    rw [hold k hk, hfl, if_neg this])]
  have : flies (p.send r) i p.sent.length = (decide (r.node = i) && decide (r.cause = .submit)) := by
    unfold flies
    rw [hfl, if_pos rfl]
    have : (p.send r).sent[p.sent.length]? = some r := by simp [Page.send]
    rw [this]
    simp
  rw [this]
  show p.waiting.countP _ + _ = _
  omega

/-- What is kept when `neutral_fev` has run, as far as events are concerned. -/
theorem inv_fev (p : Page) (h : Inv p) : Inv p.fev := by
  obtain ⟨hq, hb, -⟩ := fev_spec p
  generalize p.fev = q at hq hb ⊢
  have hb := hb h.toBooks
  have hok : ∀ r, ReqOk p r → ReqOk q r := by
    intro r ⟨e, he⟩
    exact ⟨e, by rw [hq.elems]; exact he⟩
  have hlen := quiet_len hq
  refine ⟨hb, ?_, ?_, ?_, ?_, by rw [hq.restoring, hq.elems]; exact h.rest, ?_⟩
  · intro r hr
    obtain ⟨k, hk⟩ := List.getElem?_of_mem hr
    by_cases hlt : k < p.sent.length
    · rw [quiet_sent hq k hlt] at hk
      exact hok r (h.req r (List.mem_of_getElem? hk))
    · obtain ⟨e, he, hc, hu, ht⟩ := quiet_new hq k (by omega) r hk
      have hg : given q r.node .auto = true := by
        have h1 := hb.auto r.node
        have h2 := asked_pos q r hr
        rw [hc] at h2
        exact bit_pos (by omega)
      obtain ⟨e', he', hh⟩ := (given_iff _ _ _).1 hg
      rw [hq.elems, he] at he'
      cases he'
      refine ⟨e, by rw [hq.elems]; exact he, by rw [hc]; exact hh, by rw [hc]; exact hu, fun hn => ?_⟩
      exact targetOf_none p r.node e (by rw [← ht]; exact hn)
  · intro r hr
    rw [hq.waiting] at hr
    exact ⟨hok r (h.wait r hr).1, (h.wait r hr).2⟩
  · intro k hk
    rw [hq.flying] at hk
    split at hk
    · omega
    · split at hk
      · assumption
      · exact absurd (h.fly k hk) (by assumption)
  · intro k
    rw [hq.events, h.ev k, hq.flying]
    by_cases hlt : k < p.sent.length
    · have : k < q.sent.length := by omega
      have hl : lost q k = lost p k := by
        unfold lost
        rw [quiet_sent hq k hlt]
      simp [hlt, this, hl]
    · by_cases hlt2 : k < q.sent.length
      · simp [hlt, hlt2]
      · simp [hlt, hlt2]
  · intro i e he hbt
    rw [hq.elems] at he
    have := h.one i e he hbt
    have hu : underWay q i = underWay p i := quiet_underWay hq i
    rw [hu, hq.restoring, hq.disabled]
    exact this

/-- A request goes out. -/
theorem inv_send (p : Page) (r : Req) (hb : Books (p.send r)) (hr : ReqOk p r) (hq : ∀ x ∈ p.sent, ReqOk p x)
    (hw : ∀ x ∈ p.waiting, ReqOk p x ∧ x.cause = .submit) (hf : ∀ k, p.flying k = true → k < p.sent.length)
    (he : ∀ k, p.events.countP (fun e => decide (e.2 = k)) = bit (decide (k < p.sent.length) && !p.flying k && !lost p k))
    (hrs : ∀ i ∈ p.restoring, i < p.elems.length)
    (ho : ∀ i e, p.elems[i]? = some e → e.buttons = true →
      underWay p i + bit (decide (r.node = i) && decide (r.cause = .submit)) + p.restoring.count i ≤ bit (p.disabled i)) :
    Inv (p.send r) := by
  have hlen : (p.send r).sent.length = p.sent.length + 1 := by simp [Page.send]
  have hfl : ∀ k, (p.send r).flying k = if k = p.sent.length then true else p.flying k := fun k => rfl
  have hold : ∀ k, k < p.sent.length → (p.send r).sent[k]? = p.sent[k]? := by
    intro k hk
    show (p.sent ++ [r])[k]? = _
    rw [List.getElem?_append_left hk]
  refine ⟨hb, ?_, hw, ?_, ?_, hrs, ?_⟩
  · intro x hx
    rcases List.mem_append.1 (show x ∈ p.sent ++ [r] from hx) with hx | hx
    · exact hq x hx
    · rw [List.mem_singleton] at hx
      subst hx
      exact hr
  · intro k hk
    rw [hfl] at hk
    rw [hlen]
    split at hk
    · omega
    · have := hf k hk
      omega
  · intro k
    rw [show (p.send r).events = p.events from rfl, he k, hfl, hlen]
    by_cases hk : k = p.sent.length
    · simp [hk]
    · by_cases hlt : k < p.sent.length
      · have : k < p.sent.length + 1 := by omega
        have hl : lost (p.send r) k = lost p k := by
          unfold lost
          rw [hold k hlt]
        simp [hk, hlt, this, hl]
      · have : ¬ k < p.sent.length + 1 := by omega
        simp [hlt, this]
  · intro i e hi hbt
    have := ho i e hi hbt
    have hu := send_underWay p r i
    rw [hu]
    exact this

/-- An element asks with `GET`. -/
theorem inv_get (p : Page) (i : Nat) (e : Elem) (c : Cause) (h : Inv p) (hi : p.elems[i]? = some e)
    (hk : e.has (kindOf c) = true) (hc : c = .click) : Inv (p.get i c) := by
  subst hc
  unfold Page.get
  rw [hi]
  refine inv_send p _ ?_ ?_ h.req h.wait h.fly h.ev h.rest ?_
  · refine ⟨fun j => ?_, fun j => ?_, h.click, h.form, h.live⟩
    · rw [asked_send]
      have : bit (decide (i = j) && decide (Cause.click = .auto)) = 0 := by simp [bit]
      rw [this]
      exact h.auto j
    · rw [asked_send]
      have : bit (decide (i = j) && decide (Cause.click = .visible)) = 0 := by simp [bit]
      rw [this]
      exact h.visible j
  · exact ⟨e, hi, hk, by simp, fun hn => targetOf_none p i e hn⟩
  · intro j f hj hb
    have := h.one j f hj hb
    simpa [bit] using this

/-- A request is over, and its event is dispatched. -/
theorem inv_done (p : Page) (r : Nat) (q : Req) (ok : Bool) (rest : List Nat) (h : Inv p) (hf : p.flying r = true)
    (hr : p.sent[r]? = some q) (hn : q.target = none → q.cause = .submit)
    (hrest : rest = [] ∨ (rest = [q.node] ∧ q.cause = .submit)) :
    Inv { p.land r with
          events := p.events ++ [(ok, r)]
          restoring := p.restoring ++ rest } := by
  have hlt := h.fly r hf
  have hl : lost p r = false := by
    unfold lost
    rw [hr]
    cases ht : q.target with
    | none => simp [hn ht]
    | some t => simp [ht]
  refine ⟨⟨h.auto, h.visible, h.click, h.form, h.live⟩, h.req, h.wait, ?_, ?_, ?_, ?_⟩
  · intro k hk
    have hk : (if k = r then false else p.flying k) = true := hk
    split at hk
    · cases hk
    · exact h.fly k hk
  · intro k
    show (p.events ++ [(ok, r)]).countP _ = bit (decide (k < p.sent.length) && !(if k = r then false else p.flying k) && !lost p k)
    rw [List.countP_append, h.ev k]
    by_cases hk : k = r
    · subst hk
      simp [hf, hl, hlt, bit]
    · have : ¬ r = k := fun x => hk x.symm
      simp [hk, this]
  · intro i hi
    rcases List.mem_append.1 (show i ∈ p.restoring ++ rest from hi) with hi | hi
    · exact h.rest i hi
    · rcases hrest with hx | ⟨hx, hc⟩
      · rw [hx] at hi
        cases hi
      · rw [hx, List.mem_singleton] at hi
        subst hi
        obtain ⟨f, hf', -⟩ := h.req q (List.mem_of_getElem? hr)
        exact (List.getElem?_eq_some_iff.1 hf').1
  · intro i e hi hb
    have h1 := h.one i e hi hb
    have hd : cnt p.sent.length (flies p i) =
        cnt p.sent.length (flies { p.land r with
          events := p.events ++ [(ok, r)]
          restoring := p.restoring ++ rest } i) + bit (flies p i r) := by
      refine cnt_drop _ r _ _ hlt (fun k hk => ?_) ?_
      · unfold flies
        show ((if k = r then false else p.flying k) && _) = _
        rw [if_neg hk]
        rfl
      · unfold flies
        show ((if r = r then false else p.flying r) && _) = _
        rw [if_pos rfl]
        rfl
    have hr' : rest.count i ≤ bit (flies p i r) := by
      rcases hrest with hx | ⟨hx, hc⟩
      · rw [hx]
        simp
      · rw [hx]
        unfold flies
        rw [hf, hr]
        by_cases hy : q.node = i <;> simp [hy, hc, bit]
    rw [underWay_eq] at h1 ⊢
    show p.waiting.countP _ + cnt p.sent.length _ + (p.restoring ++ rest).count i ≤ bit (p.disabled i)
    rw [List.count_append]
    omega

/-- A request is over, and nobody hears of it. -/
theorem inv_lost (p : Page) (r : Nat) (q : Req) (h : Inv p) (hr : p.sent[r]? = some q) (hf : p.flying r = true)
    (hn : q.target = none) (hc : q.cause ≠ .submit) : Inv (p.land r) := by
  have hlt := h.fly r hf
  have hl : lost p r = true := by
    unfold lost
    rw [hr]
    simp [hn, hc]
  refine ⟨⟨h.auto, h.visible, h.click, h.form, h.live⟩, h.req, h.wait, ?_, ?_, h.rest, ?_⟩
  · intro k hk
    have hk : (if k = r then false else p.flying k) = true := hk
    split at hk
    · cases hk
    · exact h.fly k hk
  · intro k
    show p.events.countP _ = bit (decide (k < p.sent.length) && !(if k = r then false else p.flying k) && !lost p k)
    rw [h.ev k]
    by_cases hk : k = r
    · subst hk
      simp [hl]
    · simp [hk]
  · intro i e hi hb
    have h1 := h.one i e hi hb
    have hd : cnt p.sent.length (flies (p.land r) i) = cnt p.sent.length (flies p i) := by
      refine cnt_congr _ _ _ (fun k hk => ?_)
      unfold flies
      show ((if k = r then false else p.flying k) && _) = _
      by_cases hx : k = r
      · subst hx
        rw [if_pos rfl, hr]
        simp [hc]
      · rw [if_neg hx]
        rfl
    rw [underWay_eq] at h1 ⊢
    show p.waiting.countP _ + cnt p.sent.length _ + p.restoring.count i ≤ bit (p.disabled i)
    omega

theorem getElem?_left {p : Page} {i : Nat} {e : Elem} (new : List Elem) (h : p.elems[i]? = some e) :
    (p.elems ++ new)[i]? = some e := by
  have : i < p.elems.length := by
    rw [List.getElem?_eq_some_iff] at h
    exact h.1
  rw [List.getElem?_append_left this, h]

/-- The document changes. -/
theorem inv_change (p : Page) (keep : Nat → Bool) (new : List Elem) (h : Inv p) : Inv (p.change keep new) := by
  have hz : ∀ i, p.elems.length ≤ i → ∀ k, given p i k = false := by
    intro i hi k
    unfold given
    rw [List.getElem?_eq_none hi]
    rfl
  have hgo : ∀ i k, i < p.elems.length → given (p.change keep new) i k = given p i k := by
    intro i k hi
    unfold given
    show ((p.elems ++ new)[i]?).any _ = _
    rw [List.getElem?_append_left hi]
  have hgn : ∀ i k, p.elems.length ≤ i → given (p.change keep new) i k = (p.change keep new).cls i k := by
    intro i k hi
    unfold given Page.change
    dsimp only
    rw [List.getElem?_append_right hi, if_neg (by omega)]
    cases new[i - p.elems.length]? <;> rfl
  have hco : ∀ i k, i < p.elems.length → (p.change keep new).cls i k = p.cls i k := by
    intro i k hi
    unfold Page.change
    dsimp only
    rw [if_pos hi]
  have hok : ∀ r, ReqOk p r → ReqOk (p.change keep new) r := by
    intro r ⟨e, he, hx⟩
    exact ⟨e, getElem?_left new he, hx⟩
  have ha : ∀ i c, asked (p.change keep new) i c = asked p i c := fun _ _ => rfl
  refine ⟨⟨?_, ?_, ?_, ?_, ?_⟩, fun r hr => hok r (h.req r hr), fun r hr => ⟨hok r (h.wait r hr).1, (h.wait r hr).2⟩, h.fly, h.ev, ?_, ?_⟩
  · intro i
    rw [ha]
    by_cases hi : i < p.elems.length
    · rw [hgo i _ hi, hco i _ hi]
      exact h.auto i
    · rw [hgn i _ (by omega)]
      have := h.auto i
      rw [hz i (by omega)] at this
      have hb : bit false = 0 := rfl
      omega
  · intro i
    rw [ha]
    show _ + bit (p.observed i) + _ = _
    by_cases hi : i < p.elems.length
    · rw [hgo i _ hi, hco i _ hi]
      exact h.visible i
    · rw [hgn i _ (by omega)]
      have := h.visible i
      rw [hz i (by omega)] at this
      have hb : bit false = 0 := rfl
      omega
  · intro i
    show p.clickL i + _ = _
    by_cases hi : i < p.elems.length
    · rw [hgo i _ hi, hco i _ hi]
      exact h.click i
    · rw [hgn i _ (by omega)]
      have := h.click i
      rw [hz i (by omega)] at this
      have hb : bit false = 0 := rfl
      omega
  · intro i
    show p.submitL i + _ = _
    by_cases hi : i < p.elems.length
    · rw [hgo i _ hi, hco i _ hi]
      exact h.form i
    · rw [hgn i _ (by omega)]
      have := h.form i
      rw [hz i (by omega)] at this
      have hb : bit false = 0 := rfl
      omega
  · intro i hi
    unfold Page.change at hi ⊢
    dsimp only at hi ⊢
    rw [List.length_append]
    split at hi
    · omega
    · simpa using hi
  · intro i hi
    have := h.rest i hi
    show i < (p.elems ++ new).length
    rw [List.length_append]
    omega
  · intro i e hi hb
    by_cases hlt : i < p.elems.length
    · have : p.elems[i]? = some e := by
        rw [← List.getElem?_append_left (l₂ := new) hlt]
        exact hi
      exact h.one i e this hb
    · -- nobody has asked for an element that did not exist
      have hw : p.waiting.countP (fun r => decide (r.node = i)) = 0 := by
        rw [List.countP_eq_zero]
        intro r hr hx
        obtain ⟨f, hf, -⟩ := (h.wait r hr).1
        rw [show r.node = i by simpa using hx, List.getElem?_eq_none (by omega)] at hf
        cases hf
      have hf : cnt p.sent.length (flies p i) = 0 := by
        have := cnt_grow 0 p.sent.length (flies p i) (fun k _ hk => by
          unfold flies
          cases hs : p.sent[k]? with
          | none => simp
          | some r =>
            obtain ⟨f, hf, -⟩ := h.req r (List.mem_of_getElem? hs)
            have : r.node ≠ i := by
              intro hx
              rw [hx, List.getElem?_eq_none (by omega)] at hf
              cases hf
            simp [this])
        rw [Nat.zero_add] at this
        exact this
      have hr : p.restoring.count i = 0 := by
        rw [List.count_eq_zero]
        intro hx
        exact hlt (h.rest i hx)
      have hu : underWay (p.change keep new) i = 0 := by
        show p.waiting.countP _ + cnt p.sent.length (flies p i) = 0
        omega
      have hr' : (p.change keep new).restoring.count i = 0 := hr
      omega

theorem inv_event (p : Page) (r : Nat) (q : Req) (ok : Bool) (rest : List Nat) (h : Inv p) (hf : p.flying r = true)
    (hr : p.sent[r]? = some q) (hn : q.target = none → q.cause = .submit)
    (hrest : rest = [] ∨ (rest = [q.node] ∧ q.cause = .submit)) :
    Inv (Page.event { p.land r with restoring := p.restoring ++ rest } ok r) :=
  inv_fev _ (inv_done p r q ok rest h hf hr hn hrest)

theorem land_rest (p : Page) (r : Nat) : { p.land r with restoring := p.restoring ++ [] } = p.land r := by
  rw [List.append_nil]
  rfl

/-- An element asks for its content when it becomes visible. -/
theorem inv_seen (p : Page) (i : Nat) (h : Inv p) (ho : p.observed i = true) :
    Inv (({ p with observed := fun j => if j = i then false else p.observed j }).get i .visible) := by
  have hg : given p i .visible = true := by
    have := h.visible i
    rw [ho] at this
    exact bit_pos (by have hb : bit true = 1 := rfl; omega)
  obtain ⟨e, he, hk⟩ := (given_iff _ _ _).1 hg
  unfold Page.get
  have he' : ({ p with observed := fun j => if j = i then false else p.observed j } : Page).elems[i]? = some e := he
  rw [he']
  refine inv_send _ _ ?_ ?_ h.req h.wait h.fly h.ev h.rest ?_
  · refine ⟨fun j => ?_, fun j => ?_, h.click, h.form, h.live⟩
    · rw [asked_send]
      have : bit (decide (i = j) && decide (Cause.visible = .auto)) = 0 := by simp [bit]
      rw [this]
      exact h.auto j
    · rw [asked_send]
      have hv := h.visible j
      show asked p j .visible + bit (decide (i = j) && decide (Cause.visible = .visible)) + bit (if j = i then false else p.observed j) +
        bit (p.cls j .visible) = bit (given p j .visible)
      by_cases hj : j = i
      · subst hj
        rw [ho] at hv
        rw [if_pos rfl, ← hv]
        simp [bit]
      · have : ¬ i = j := fun x => hj x.symm
        rw [if_neg hj, ← hv]
        simp [bit, this]
  · exact ⟨e, he, hk, by simp, fun hn => targetOf_none _ i e hn⟩
  · intro j f hj hb
    have := h.one j f hj hb
    have hz : bit (decide (i = j) && decide (Cause.visible = .submit)) = 0 := by simp [bit]
    rw [hz]
    exact this

/-- The delay of a submission is over. -/
theorem inv_timer (p : Page) (r : Req) (l : List Req) (h : Inv p) (hw : p.waiting = r :: l) :
    Inv (Page.send { p with waiting := l } r) := by
  have hr := h.wait r (by rw [hw]; exact List.mem_cons_self ..)
  refine inv_send _ r ?_ hr.1 h.req ?_ h.fly h.ev h.rest ?_
  · refine ⟨fun j => ?_, fun j => ?_, h.click, h.form, h.live⟩
    · rw [asked_send]
      have : bit (decide (r.node = j) && decide (r.cause = .auto)) = 0 := by simp [bit, hr.2]
      rw [this]
      exact h.auto j
    · rw [asked_send]
      have : bit (decide (r.node = j) && decide (r.cause = .visible)) = 0 := by simp [bit, hr.2]
      rw [this]
      exact h.visible j
  · intro x hx
    exact h.wait x (by rw [hw]; exact List.mem_cons_of_mem _ hx)
  · intro j f hj hb
    have := h.one j f hj hb
    rw [underWay_eq, hw, List.countP_cons] at this
    rw [underWay_eq]
    show l.countP _ + cnt p.sent.length (flies p j) + _ + p.restoring.count j ≤ bit (p.disabled j)
    have hx : bit (decide (r.node = j) && decide (r.cause = .submit)) = if decide (r.node = j) = true then 1 else 0 := by
      simp [bit, hr.2]
    rw [hx]
    omega

/-- A form is submitted. -/
theorem inv_post (p : Page) (i : Nat) (e : Elem) (h : Inv p) (he : p.elems[i]? = some e) (hk : e.has .form = true)
    (hd : (e.buttons && p.disabled i) = false) :
    Inv { p with
          disabled := fun j => if j = i then true else p.disabled j
          waiting := p.waiting ++ [⟨i, .submit, e.action, p.targetOf i e⟩] } := by
  refine ⟨⟨h.auto, h.visible, h.click, h.form, h.live⟩, h.req, ?_, h.fly, h.ev, h.rest, ?_⟩
  · intro r hr
    rcases List.mem_append.1 (show r ∈ p.waiting ++ [_] from hr) with hr | hr
    · exact h.wait r hr
    · rw [List.mem_singleton] at hr
      subst hr
      exact ⟨⟨e, he, hk, by simp, fun hn => targetOf_none _ i e hn⟩, rfl⟩
  · intro j f hj hb
    have := h.one j f hj hb
    rw [underWay_eq] at this ⊢
    show (p.waiting ++ [_]).countP _ + cnt p.sent.length (flies p j) + p.restoring.count j ≤ bit (if j = i then true else p.disabled j)
    rw [List.countP_append]
    by_cases hx : j = i
    · subst hx
      have hj' : p.elems[j]? = some f := hj
      rw [he] at hj'
      cases hj'
      rw [hb, Bool.true_and] at hd
      rw [hd] at this
      have hb0 : bit false = 0 := rfl
      rw [if_pos rfl, show bit true = 1 from rfl]
      simp only [List.countP_cons, List.countP_nil]
      simp
      omega
    · rw [if_neg hx]
      have : ¬ i = j := fun y => hx y.symm
      simp only [List.countP_cons, List.countP_nil, this]
      simp
      omega

/-- The error on the buttons goes away. -/
theorem inv_restore (p : Page) (i : Nat) (l : List Nat) (h : Inv p) (hr : p.restoring = i :: l) :
    Inv { p with
          restoring := l
          disabled := fun j => if j = i then false else p.disabled j } := by
  refine ⟨⟨h.auto, h.visible, h.click, h.form, h.live⟩, h.req, h.wait, h.fly, h.ev, ?_, ?_⟩
  · intro j hj
    exact h.rest j (by rw [hr]; exact List.mem_cons_of_mem _ hj)
  · intro j f hj hb
    have h1 := h.one j f hj hb
    rw [hr, List.count_cons] at h1
    show underWay p j + l.count j ≤ bit (if j = i then false else p.disabled j)
    by_cases hx : j = i
    · subst hx
      have := bit_le (p.disabled j)
      simp only [beq_self_eq_true, if_true] at h1
      omega
    · have hx' : (i == j) = false := by simpa using fun y => hx y.symm
      rw [if_neg hx]
      simp only [hx', Bool.false_eq_true, if_false] at h1
      omega

theorem gets_one (p : Page) (i : Nat) (c : Cause) : p.gets i c 1 = p.get i c := rfl

theorem has_click (p : Page) (h : Books p) (i : Nat) :
    p.clickL i = 0 ∨ (p.clickL i = 1 ∧ ∃ e, p.elems[i]? = some e ∧ e.has .click = true) := by
  have h1 := h.click i
  have h2 := bit_le (given p i .click)
  by_cases hz : p.clickL i = 0
  · exact .inl hz
  · exact .inr ⟨by omega, (given_iff _ _ _).1 (bit_pos (by omega))⟩

theorem has_form (p : Page) (h : Books p) (i : Nat) :
    p.submitL i = 0 ∨ (p.submitL i = 1 ∧ ∃ e, p.elems[i]? = some e ∧ e.has .form = true) := by
  have h1 := h.form i
  have h2 := bit_le (given p i .form)
  by_cases hz : p.submitL i = 0
  · exact .inl hz
  · exact .inr ⟨by omega, (given_iff _ _ _).1 (bit_pos (by omega))⟩

/-- The steps, sorted. -/
inductive Does (p : Page) : Act → Page → Prop
  | loaded : Does p .loaded p.fev
  | click0 {i : Nat} : p.live i = true → p.clickL i = 0 → Does p (.click i) p
  | click1 {i : Nat} {e : Elem} : p.live i = true → p.clickL i = 1 → p.elems[i]? = some e → e.has .click = true →
      Does p (.click i) (p.send ⟨i, .click, e.url, p.targetOf i e⟩)
  | submit0 {i : Nat} : p.live i = true → p.submitL i = 0 → Does p (.submit i) p
  | submit1 {i : Nat} {e : Elem} : p.live i = true → p.submitL i = 1 → p.elems[i]? = some e → e.has .form = true →
      (e.buttons && p.disabled i) = false →
      Does p (.submit i) { p with
          disabled := fun j => if j = i then true else p.disabled j
          waiting := p.waiting ++ [⟨i, .submit, e.action, p.targetOf i e⟩] }
  | seen {i : Nat} : p.live i = true → p.observed i = true →
      Does p (.seen i) (({ p with observed := fun j => if j = i then false else p.observed j }).get i .visible)
  | timer {r : Req} {l : List Req} : p.waiting = r :: l → Does p .timer (Page.send { p with waiting := l } r)
  | answered {r : Nat} {q : Req} {t : Nat} {keep : Nat → Bool} {new : List Elem} : p.sent[r]? = some q → p.flying r = true →
      q.target = some t → Does p (.answer r keep new) (((p.land r).change keep new).event true r)
  | answerErr {r : Nat} {q : Req} {keep : Nat → Bool} {new : List Elem} : p.sent[r]? = some q → p.flying r = true →
      q.target = none → q.cause = .submit → Does p (.answer r keep new) (p.formError r q.node)
  | answerLost {r : Nat} {q : Req} {keep : Nat → Bool} {new : List Elem} : p.sent[r]? = some q → p.flying r = true →
      q.target = none → q.cause ≠ .submit → Does p (.answer r keep new) (p.land r)
  | failsForm {r : Nat} {q : Req} {keep : Nat → Bool} : p.sent[r]? = some q → p.flying r = true →
      q.cause = .submit → Does p (.fails r keep) (p.formError r q.node)
  | fails {r : Nat} {q : Req} {t : Nat} {keep : Nat → Bool} : p.sent[r]? = some q → p.flying r = true →
      q.target = some t → q.cause ≠ .submit → Does p (.fails r keep) (((p.land r).change keep []).event false r)
  | failsLost {r : Nat} {q : Req} {keep : Nat → Bool} : p.sent[r]? = some q → p.flying r = true →
      q.target = none → q.cause ≠ .submit → Does p (.fails r keep) (p.land r)
  | restore {i : Nat} {l : List Nat} : p.restoring = i :: l →
      Does p .restore { p with
          restoring := l
          disabled := fun j => if j = i then false else p.disabled j }

theorem step_does (p q : Page) (a : Act) (h : Books p) (hs : step p a = some q) : Does p a q := by
  cases a with
  | loaded => cases hs; exact .loaded
  | click i =>
    unfold step at hs
    dsimp only at hs
    split at hs
    · next hl =>
      cases hs
      rcases has_click p h i with hz | ⟨h1, e, he, hk⟩
      · rw [hz]
        exact .click0 hl hz
      · rw [h1, gets_one]
        have : p.get i .click = p.send ⟨i, .click, e.url, p.targetOf i e⟩ := by
          unfold Page.get
          rw [he]
        rw [this]
        exact .click1 hl h1 he hk
    · cases hs
  | submit i =>
    unfold step at hs
    dsimp only at hs
    split at hs
    · cases hs
    · next e he =>
      split at hs
      · next hl =>
        cases hs
        rw [Bool.and_eq_true, Bool.not_eq_true'] at hl
        rcases has_form p h i with hz | ⟨h1, e', he', hk⟩
        · rw [hz]
          exact .submit0 hl.1 hz
        · rw [he] at he'
          cases he'
          rw [h1]
          exact .submit1 hl.1 h1 he hk hl.2
      · cases hs
  | seen i =>
    unfold step at hs
    dsimp only at hs
    split at hs
    · next hl =>
      cases hs
      rw [Bool.and_eq_true] at hl
      exact .seen hl.1 hl.2
    · cases hs
  | timer =>
    unfold step at hs
    dsimp only at hs
    split at hs
    · cases hs
    · next hw => cases hs; exact .timer hw
  | answer r keep new =>
    unfold step at hs
    dsimp only at hs
    split at hs
    · cases hs
    · next q' hr =>
      split at hs
      · next hf =>
        split at hs
        · next t ht => cases hs; exact .answered hr hf ht
        · next ht =>
          split at hs
          · next hc => cases hs; exact .answerErr hr hf ht hc
          · next hc => cases hs; exact .answerLost hr hf ht hc
      · cases hs
  | fails r keep =>
    unfold step at hs
    dsimp only at hs
    split at hs
    · cases hs
    · next q' hr =>
      split at hs
      · next hf =>
        split at hs
        · next hc => cases hs; exact .failsForm hr hf hc
        · next hc =>
          split at hs
          · next t ht => cases hs; exact .fails hr hf ht hc
          · next ht => cases hs; exact .failsLost hr hf ht hc
      · cases hs
  | restore =>
    unfold step at hs
    dsimp only at hs
    split at hs
    · cases hs
    · next hw => cases hs; exact .restore hw

theorem inv_does (p q : Page) (a : Act) (h : Inv p) (hd : Does p a q) : Inv q := by
  cases hd with
  | loaded => exact inv_fev p h
  | click0 _ _ => exact h
  | @click1 i e hl h1 he hk =>
    have := inv_get p i e .click h he hk rfl
    unfold Page.get at this
    rw [he] at this
    exact this
  | submit0 _ _ => exact h
  | submit1 hl h1 he hk hd => exact inv_post p _ _ h he hk hd
  | seen hl ho => exact inv_seen p _ h ho
  | timer hw => exact inv_timer p _ _ h hw
  | @answered r q t keep new hr hf ht =>
    have := inv_event (p.change keep new) r q true [] (inv_change p keep new h) hf hr (fun hn => by rw [ht] at hn; cases hn) (.inl rfl)
    rw [land_rest] at this
    exact this
  | answerErr hr hf ht hc => exact inv_event p _ _ false [_] h hf hr (fun _ => hc) (.inr ⟨rfl, hc⟩)
  | answerLost hr hf ht hc => exact inv_lost p _ _ h hr hf ht hc
  | failsForm hr hf hc => exact inv_event p _ _ false [_] h hf hr (fun _ => hc) (.inr ⟨rfl, hc⟩)
  | @fails r q t keep hr hf ht hc =>
    have := inv_event (p.change keep []) r q false [] (inv_change p keep [] h) hf hr (fun hn => by rw [ht] at hn; cases hn) (.inl rfl)
    rw [land_rest] at this
    exact this
  | failsLost hr hf ht hc => exact inv_lost p _ _ h hr hf ht hc
  | restore hw => exact inv_restore p _ _ h hw

theorem inv_start (l : List Elem) : Inv (start l) := by
  have hg : ∀ i k, (start l).cls i k = given (start l) i k := by
    intro i k
    unfold given start
    dsimp only
    cases l[i]? <;> rfl
  refine ⟨⟨fun i => ?_, fun i => ?_, fun i => ?_, fun i => ?_, ?_⟩, ?_, ?_, ?_, ?_, ?_, ?_⟩
  · rw [hg]; simp [asked, start]
  · rw [hg]; simp [asked, start, bit]
  · rw [hg]; simp [start]
  · rw [hg]; simp [start]
  · intro i hi
    simpa [start] using hi
  · intro r hr; cases hr
  · intro r hr; cases hr
  · intro k hk; cases hk
  · intro k; simp [start, bit]
  · intro k hk; cases hk
  · intro i e _ _; simp [start, underWay]

theorem runs_inv {l : List Elem} {acts : List Act} {p : Page} (h : Runs (start l) acts p) : Inv p := by
  induction h with
  | nil => exact inv_start l
  | snoc _ hs ih => exact inv_does _ _ _ ih (step_does _ _ _ ih.toBooks hs)

/-- No element of the document waits to be set up. -/
def Ready (p : Page) : Prop := ∀ i k, p.live i = true → p.cls i k = false

theorem ready_fev (p : Page) (h : Books p) : Ready p.fev := by
  obtain ⟨hq, -, hc⟩ := fev_spec p
  intro i k hl
  rw [hq.live] at hl
  exact hc i k (h.live i hl) hl

theorem ready_event (p : Page) (ok : Bool) (r : Nat) (hl : ∀ i, p.live i = true → i < p.elems.length) : Ready (p.event ok r) := by
  obtain ⟨hq, -, hc⟩ := fev_spec { p with events := p.events ++ [(ok, r)] }
  intro i k hi
  have hi : p.live i = true := by
    have : ({ p with events := p.events ++ [(ok, r)] } : Page).fev.live i = true := hi
    rw [hq.live] at this
    exact this
  exact hc i k (hl i hi) hi

theorem ready_does (p q : Page) (a : Act) (h : Inv p) (hr : Ready p) (hd : Does p a q) : Ready q := by
  cases hd with
  | loaded => exact ready_fev p h.toBooks
  | click0 _ _ => exact hr
  | click1 _ _ _ _ => exact hr
  | submit0 _ _ => exact hr
  | submit1 _ _ _ _ _ => exact hr
  | seen hl ho =>
    unfold Page.get
    split
    · exact hr
    · exact hr
  | timer hw => exact hr
  | answered _ _ _ => exact ready_event _ _ _ (inv_change p _ _ h).live
  | answerErr _ _ _ _ => exact ready_event _ _ _ h.live
  | answerLost _ _ _ _ => exact hr
  | failsForm _ _ _ => exact ready_event _ _ _ h.live
  | fails _ _ _ _ => exact ready_event _ _ _ (inv_change p _ _ h).live
  | failsLost _ _ _ _ => exact hr
  | restore hw => exact hr

theorem runs_ready {l : List Elem} {acts : List Act} {p : Page} (h : Runs (start l) acts p) (hl : wasLoaded acts = true) :
    Ready p := by
  induction h with
  | nil => cases hl
  | @snoc p1 p2 acts a hr hs ih =>
    have hi := runs_inv hr
    have hd := step_does _ _ _ hi.toBooks hs
    cases hx : wasLoaded acts
    · unfold wasLoaded at hl hx
      rw [List.any_append, hx] at hl
      cases hd with
      | loaded => exact ready_fev _ hi.toBooks
      | _ => simp at hl
    · exact ready_does _ _ _ hi (ih hx) hd

/-! ### C99: every element is set up once -/

theorem clicks_snoc (i : Nat) (l : List Act) (a : Act) : clicks i (l ++ [a]) = clicks i l + clicks i [a] := by
  unfold clicks
  rw [List.countP_append]

theorem submits_snoc (i : Nat) (l : List Act) (a : Act) : submits i (l ++ [a]) = submits i l + submits i [a] := by
  unfold submits
  rw [List.countP_append]

theorem quiet_asked {p q : Page} (h : Quiet p q) (i : Nat) (c : Cause) (hc : c ≠ .auto) : asked q i c = asked p i c := by
  obtain ⟨l, hl, hx⟩ := h.sent
  unfold asked
  rw [hl, List.countP_append]
  have : l.countP (fun r => decide (r.node = i) && decide (r.cause = c)) = 0 := by
    rw [List.countP_eq_zero]
    intro r hr hy
    obtain ⟨e, -, ha, -⟩ := hx r hr
    simp [ha] at hy
    exact hc hy.2.symm
  omega

/-- What a step adds to the requests of an element, clicks and submissions. -/
theorem does_counts (p q : Page) (a : Act) (h : Inv p) (i : Nat) (hd : Does p a q) :
    asked q i .click ≤ asked p i .click + clicks i [a] ∧
    asked q i .submit + q.waiting.countP (fun r => decide (r.node = i)) ≤
      asked p i .submit + p.waiting.countP (fun r => decide (r.node = i)) + submits i [a] := by
  have hev : ∀ (p' : Page) (ok : Bool) (r : Nat) (c : Cause), c ≠ .auto → p'.sent = p.sent → p'.waiting = p.waiting →
      asked (p'.event ok r) i c = asked p i c ∧ (p'.event ok r).waiting = p.waiting := by
    intro p' ok r c hc h1 h2
    have hq := (fev_spec { p' with events := p'.events ++ [(ok, r)] }).1
    refine ⟨?_, ?_⟩
    · rw [Page.event, quiet_asked hq i c hc]
      unfold asked
      rw [← h1]
    · rw [Page.event, hq.waiting]
      exact h2
  have hev2 : ∀ (p' : Page) (ok : Bool) (r : Nat), p'.sent = p.sent → p'.waiting = p.waiting →
      asked (p'.event ok r) i .click ≤ asked p i .click + clicks i [a] ∧
      asked (p'.event ok r) i .submit + (p'.event ok r).waiting.countP (fun r => decide (r.node = i)) ≤
        asked p i .submit + p.waiting.countP (fun r => decide (r.node = i)) + submits i [a] := by
    intro p' ok r h1 h2
    obtain ⟨e1, e2⟩ := hev p' ok r .click (by decide) h1 h2
    obtain ⟨e3, -⟩ := hev p' ok r .submit (by decide) h1 h2
    rw [e1, e3, e2]
    omega
  cases hd with
  | loaded =>
    have hq := (fev_spec p).1
    rw [quiet_asked hq i _ (by decide), quiet_asked hq i _ (by decide), hq.waiting]
    omega
  | click0 _ _ => omega
  | @click1 j e hl h1 he hk =>
    refine ⟨?_, ?_⟩
    · rw [asked_send]
      unfold clicks bit
      by_cases hj : j = i <;> simp [hj]
    · rw [asked_send]
      show _ + _ + p.waiting.countP _ ≤ _
      have : bit (decide (j = i) && decide (Cause.click = .submit)) = 0 := by simp [bit]
      rw [this]
      omega
  | submit0 _ _ => omega
  | @submit1 j e hl h1 he hk hd =>
    refine ⟨?_, ?_⟩
    · show asked p i .click ≤ _
      omega
    · show asked p i .submit + (p.waiting ++ [_]).countP _ ≤ _
      rw [List.countP_append]
      unfold submits
      by_cases hj : j = i <;> simp [hj] <;> omega
  | @seen j hl ho =>
    unfold Page.get
    split
    · show asked p i .click ≤ _ ∧ asked p i .submit + p.waiting.countP _ ≤ _
      omega
    · rw [asked_send, asked_send]
      show asked p i .click + bit (decide (j = i) && decide (Cause.visible = .click)) ≤ _ ∧
        asked p i .submit + bit (decide (j = i) && decide (Cause.visible = .submit)) + p.waiting.countP _ ≤ _
      simp [bit]
  | @timer r l hw =>
    have hc := (h.wait r (by rw [hw]; exact List.mem_cons_self ..)).2
    rw [asked_send, asked_send, hw, List.countP_cons]
    show asked p i .click + bit (decide (r.node = i) && decide (r.cause = .click)) ≤ _ ∧
      asked p i .submit + bit (decide (r.node = i) && decide (r.cause = .submit)) + l.countP _ ≤ _
    simp [bit, hc]
    omega
  | answered _ _ _ => exact hev2 _ _ _ rfl rfl
  | answerErr _ _ _ _ => exact hev2 _ _ _ rfl rfl
  | answerLost _ _ _ _ =>
    show asked p i .click ≤ _ ∧ asked p i .submit + p.waiting.countP _ ≤ _
    omega
  | failsForm _ _ _ => exact hev2 _ _ _ rfl rfl
  | fails _ _ _ _ => exact hev2 _ _ _ rfl rfl
  | failsLost _ _ _ _ =>
    show asked p i .click ≤ _ ∧ asked p i .submit + p.waiting.countP _ ≤ _
    omega
  | restore _ =>
    show asked p i .click ≤ _ ∧ asked p i .submit + p.waiting.countP _ ≤ _
    omega

/-- C99.  Whatever happens on a page, an element asks at most once by itself and at most once because it is visible, and not more often
than it is clicked on or submitted. -/
theorem C99_once (l : List Elem) (acts : List Act) (p : Page) (h : Runs (start l) acts p) (i : Nat) :
    asked p i .auto ≤ 1 ∧ asked p i .visible ≤ 1 ∧ asked p i .click ≤ clicks i acts ∧ asked p i .submit ≤ submits i acts := by
  have hi := runs_inv h
  have h1 := hi.auto i
  have h2 := hi.visible i
  have h3 := bit_le (given p i .auto)
  have h4 := bit_le (given p i .visible)
  have h5 : asked p i .click ≤ clicks i acts ∧
      asked p i .submit + p.waiting.countP (fun r => decide (r.node = i)) ≤ submits i acts := by
    clear hi h1 h2 h3 h4
    induction h with
    | nil => simp [asked, start]
    | snoc hr hs ih =>
      obtain ⟨a1, a2⟩ := does_counts _ _ _ (runs_inv hr) i (step_does _ _ _ (runs_inv hr).toBooks hs)
      rw [clicks_snoc, submits_snoc]
      omega
  omega

/-- C99.  Every request comes from an element that appeared with the class for it, and goes to the address the element gives. -/
theorem C99_only (l : List Elem) (acts : List Act) (p : Page) (h : Runs (start l) acts p) (r : Req) (hr : r ∈ p.sent) :
    ∃ e, p.elems[r.node]? = some e ∧ e.has (kindOf r.cause) = true ∧
      r.url = (if r.cause = .submit then e.action else e.url) := by
  obtain ⟨e, h1, h2, h3, -⟩ := (runs_inv h).req r hr
  exact ⟨e, h1, h2, h3⟩

/-- C99.  Once the page is loaded, every element of the document with the class `neutral-fetch-auto` has asked. -/
theorem C99_auto (l : List Elem) (acts : List Act) (p : Page) (h : Runs (start l) acts p) (hl : wasLoaded acts = true)
    (i : Nat) (e : Elem) (hi : p.elems[i]? = some e) (hlive : p.live i = true) :
    asked p i .auto = if e.has .auto then 1 else 0 := by
  have h1 := (runs_inv h).auto i
  rw [runs_ready h hl i .auto hlive] at h1
  have : given p i .auto = e.has .auto := by unfold given; rw [hi]; rfl
  rw [this] at h1
  exact h1

/-- C99.  Once the page is loaded, a click on an element of the document sends one request if the element has the class
`neutral-fetch-click`, and none otherwise; the same holds for elements that came with an answer. -/
theorem C99_click (l : List Elem) (acts : List Act) (p : Page) (h : Runs (start l) acts p) (hl : wasLoaded acts = true)
    (i : Nat) (e : Elem) (hi : p.elems[i]? = some e) (hlive : p.live i = true) :
    ∃ q, step p (.click i) = some q ∧
      q.sent = p.sent ++ (if e.has .click then [⟨i, .click, e.url, p.targetOf i e⟩] else []) := by
  have h1 := (runs_inv h).click i
  rw [runs_ready h hl i .click hlive] at h1
  have hg : given p i .click = e.has .click := by unfold given; rw [hi]; rfl
  rw [hg] at h1
  have hb : bit false = 0 := rfl
  refine ⟨p.gets i .click (p.clickL i), by simp [step, hlive], ?_⟩
  cases hk : e.has .click
  · rw [hk] at h1
    rw [show p.clickL i = 0 by omega]
    simp [Page.gets]
  · rw [hk] at h1
    have hb1 : bit true = 1 := rfl
    rw [show p.clickL i = 1 by omega, gets_one]
    unfold Page.get
    rw [hi]
    rfl

/-- C99.  Once the page is loaded, the submission of a form of the document (one whose buttons are not disabled) is accepted once if
the form has the class `neutral-fetch-form`, and not at all otherwise; and what was accepted is sent when the delay is over. -/
theorem C99_form (l : List Elem) (acts : List Act) (p : Page) (h : Runs (start l) acts p) (hl : wasLoaded acts = true)
    (i : Nat) (e : Elem) (hi : p.elems[i]? = some e) (hlive : p.live i = true) (hd : (e.buttons && p.disabled i) = false) :
    (∃ q, step p (.submit i) = some q ∧ q.sent = p.sent ∧
      q.waiting = p.waiting ++ (if e.has .form then [⟨i, .submit, e.action, p.targetOf i e⟩] else [])) ∧
    (∀ r w, p.waiting = r :: w → ∃ q, step p .timer = some q ∧ q.sent = p.sent ++ [r] ∧ q.waiting = w) := by
  have h1 := (runs_inv h).form i
  rw [runs_ready h hl i .form hlive] at h1
  have hg : given p i .form = e.has .form := by unfold given; rw [hi]; rfl
  rw [hg] at h1
  have hb : bit false = 0 := rfl
  refine ⟨⟨p.posts i e (p.submitL i), by simp [step, hlive, hi, hd], ?_⟩, ?_⟩
  · cases hk : e.has .form
    · rw [hk] at h1
      rw [show p.submitL i = 0 by omega]
      simp [Page.posts]
    · rw [hk] at h1
      have hb1 : bit true = 1 := rfl
      rw [show p.submitL i = 1 by omega]
      exact ⟨rfl, rfl⟩
  · intro r w hw
    exact ⟨Page.send { p with waiting := w } r, by simp only [step, hw], rfl, rfl⟩

/-- C99.  Once the page is loaded, an element of the document with the class `neutral-fetch-visible` asks when it becomes visible if
it has not asked yet; and no other element does. -/
theorem C99_visible (l : List Elem) (acts : List Act) (p : Page) (h : Runs (start l) acts p) (hl : wasLoaded acts = true)
    (i : Nat) (e : Elem) (hi : p.elems[i]? = some e) (hlive : p.live i = true) :
    (e.has .visible = true → asked p i .visible = 0 →
      ∃ q, step p (.seen i) = some q ∧ q.sent = p.sent ++ [⟨i, .visible, e.url, p.targetOf i e⟩]) ∧
    (e.has .visible = false ∨ asked p i .visible ≠ 0 → step p (.seen i) = none) := by
  have h1 := (runs_inv h).visible i
  rw [runs_ready h hl i .visible hlive] at h1
  have hg : given p i .visible = e.has .visible := by unfold given; rw [hi]; rfl
  rw [hg] at h1
  have hb : bit false = 0 := rfl
  have hb1 : bit true = 1 := rfl
  have hle := bit_le (e.has .visible)
  refine ⟨fun hk ha => ?_, fun hx => ?_⟩
  · have ho : p.observed i = true := bit_pos (by rw [hk] at h1; omega)
    refine ⟨({ p with observed := fun j => if j = i then false else p.observed j }).get i .visible, by
      simp only [step, hlive, ho, Bool.and_self, if_true], ?_⟩
    unfold Page.get
    dsimp only
    rw [hi]
    rfl
  · have ho : p.observed i = false := by
      cases hy : p.observed i
      · rfl
      · rw [hy] at h1
        rcases hx with hx | hx
        · rw [hx] at h1
          omega
        · omega
    simp [step, ho]

/-- C99.  The answer to a request replaces the element itself, or, if it has `data-wrap`, the first element of the document with that
`id`. -/
theorem C99_target (p : Page) (i : Nat) (e : Elem) :
    (e.wrap = [] → p.targetOf i e = some i) ∧
    (e.wrap ≠ [] → ∀ t, p.targetOf i e = some t → p.live t = true ∧ (p.elems[t]?).map (·.id) = some e.wrap ∧
      ∀ j, j < t → p.live j = true → (p.elems[j]?).map (·.id) ≠ some e.wrap) ∧
    (e.wrap ≠ [] → p.targetOf i e = none → ∀ j, p.live j = true → (p.elems[j]?).map (·.id) ≠ some e.wrap) := by
  have hne : e.wrap ≠ [] → e.wrap.isEmpty = false := by
    intro h
    cases hw : e.wrap
    · exact absurd hw h
    · rfl
  refine ⟨fun h => by simp [Page.targetOf, h], fun h t ht => ?_, fun h ht j hj hid => ?_⟩
  · unfold Page.targetOf at ht
    rw [hne h] at ht
    simp only [Bool.false_eq_true, if_false] at ht
    unfold Page.byId at ht
    rw [List.find?_range_eq_some] at ht
    simp only [Bool.and_eq_true, decide_eq_true_eq, Bool.not_eq_true', Bool.and_eq_false_iff, decide_eq_false_iff_not] at ht
    refine ⟨ht.1.1, ht.1.2, fun j hj hlj hid => ?_⟩
    rcases ht.2.2 j hj with hx | hx
    · rw [hlj] at hx
      cases hx
    · exact hx hid
  · unfold Page.targetOf at ht
    rw [hne h] at ht
    simp only [Bool.false_eq_true, if_false] at ht
    unfold Page.byId at ht
    rw [List.find?_eq_none] at ht
    have hlt : j < p.elems.length := by
      cases hx : p.elems[j]? with
      | none => rw [hx] at hid; cases hid
      | some e => exact (List.getElem?_eq_some_iff.1 hx).1
    exact ht j (List.mem_range.2 hlt) (by simp [hj, hid])

/-! ### C100: events -/

/-- C100.  No request gets two events, and none before it is over; and there is no event without a request. -/
theorem C100_atmost (l : List Elem) (acts : List Act) (p : Page) (h : Runs (start l) acts p) (k : Nat) :
    p.events.countP (fun e => decide (e.2 = k)) ≤ 1 ∧
    (p.flying k = true ∨ p.sent.length ≤ k → p.events.countP (fun e => decide (e.2 = k)) = 0) := by
  have he := (runs_inv h).ev k
  rw [he]
  refine ⟨bit_le _, fun hx => ?_⟩
  rcases hx with hx | hx
  · simp [bit, hx]
  · have : ¬ k < p.sent.length := by omega
    simp [bit, this]

/-- C100, the part that holds: when a request is over, exactly one event was dispatched for it, if the element named by `data-wrap`
existed when the request was made, or if the request is the submission of a form.  Missing: the other requests (`C100_refuted`). -/
theorem C100_event_partial (l : List Elem) (acts : List Act) (p : Page) (h : Runs (start l) acts p) (k : Nat) (r : Req)
    (hr : p.sent[k]? = some r) (hf : p.flying k = false) (ht : r.target ≠ none ∨ r.cause = .submit) :
    p.events.countP (fun e => decide (e.2 = k)) = 1 := by
  rw [(runs_inv h).ev k]
  have hlt : k < p.sent.length := (List.getElem?_eq_some_iff.1 hr).1
  have : lost p k = false := by
    unfold lost
    rw [hr]
    rcases ht with ht | ht <;> simp [ht]
  simp [bit, hlt, hf, this]

theorem event_events (p : Page) (ok : Bool) (r : Nat) : (p.event ok r).events = p.events ++ [(ok, r)] := by
  have hq := (fev_spec { p with events := p.events ++ [(ok, r)] }).1
  rw [Page.event, hq.events]

/-- C100.  Which event it is: `neutralFetchCompleted` for an answer that found its element, `neutralFetchError` for a failure. -/
theorem C100_which (p q : Page) (r : Nat) (x : Req) (keep : Nat → Bool) (new : List Elem) (hx : p.sent[r]? = some x)
    (hf : p.flying r = true) :
    (x.target ≠ none → step p (.answer r keep new) = some q → q.events = p.events ++ [(true, r)]) ∧
    ((x.target ≠ none ∨ x.cause = .submit) → step p (.fails r keep) = some q → q.events = p.events ++ [(false, r)]) := by
  refine ⟨fun ht hs => ?_, fun ht hs => ?_⟩
  · unfold step at hs
    simp only [hx, hf, if_true] at hs
    split at hs
    · cases hs
      exact event_events _ _ _
    · next hn => exact absurd hn ht
  · unfold step at hs
    simp only [hx, hf, if_true] at hs
    split at hs
    · cases hs
      exact event_events _ _ _
    · next hc =>
      split at hs
      · cases hs
        exact event_events _ _ _
      · next hn =>
        rcases ht with ht | ht
        · exact absurd hn ht
        · exact absurd ht hc

/-! ### C102: one submission at a time -/

/-- C102, the part that holds: for a form whose buttons carry `type="submit"` there is never more than one submission under way, and
while there is one no other is accepted. -/
theorem C102_one_partial (l : List Elem) (acts : List Act) (p : Page) (h : Runs (start l) acts p) (i : Nat) (e : Elem)
    (hi : p.elems[i]? = some e) (hb : e.buttons = true) :
    underWay p i ≤ 1 ∧ (underWay p i ≠ 0 → step p (.submit i) = none) := by
  have h1 := (runs_inv h).one i e hi hb
  have h2 := bit_le (p.disabled i)
  refine ⟨by omega, fun hu => ?_⟩
  have hd : p.disabled i = true := bit_pos (by omega)
  simp [step, hi, hb, hd]

/-- After a submission that failed, the form can be submitted again when the error has gone. -/
theorem C102_retry (l : List Elem) (acts : List Act) (p q : Page) (h : Runs (start l) acts p) (i : Nat) (e : Elem) (w : List Nat)
    (hi : p.elems[i]? = some e) (hlive : p.live i = true) (hw : p.restoring = i :: w) (hq : step p .restore = some q) :
    step q (.submit i) ≠ none := by
  have : Inv p := runs_inv h
  unfold step at hq
  simp only [hw] at hq
  cases hq
  simp [step, hi, hlive]

/-- The buttons of a form that nobody will enable. -/
def Stuck (p : Page) (i : Nat) : Prop :=
  (∃ e, p.elems[i]? = some e ∧ e.buttons = true) ∧ p.disabled i = true ∧ i ∉ p.restoring ∧ underWay p i = 0

theorem land_underWay (p : Page) (r : Nat) (i : Nat) : underWay (p.land r) i ≤ underWay p i := by
  rw [underWay_eq, underWay_eq]
  show p.waiting.countP _ + cnt p.sent.length (flies (p.land r) i) ≤ _
  have : ∀ n, cnt n (flies (p.land r) i) ≤ cnt n (flies p i) := by
    intro n
    induction n with
    | zero => exact Nat.le_refl _
    | succ n ih =>
      rw [cnt_succ, cnt_succ]
      have : bit (flies (p.land r) i n) ≤ bit (flies p i n) := by
        unfold flies
        show bit ((if n = r then false else p.flying n) && _) ≤ _
        split
        · simp [bit]
        · exact Nat.le_refl _
      omega
  have := this p.sent.length
  omega

theorem event_stuck (p : Page) (ok : Bool) (r i : Nat) (h : Stuck p i) : Stuck (p.event ok r) i := by
  have hq := (fev_spec { p with events := p.events ++ [(ok, r)] }).1
  obtain ⟨h1, h2, h3, h4⟩ := h
  unfold Stuck Page.event
  rw [quiet_underWay hq i, hq.elems, hq.disabled, hq.restoring]
  exact ⟨h1, h2, h3, h4⟩

theorem change_stuck (p : Page) (keep : Nat → Bool) (new : List Elem) (i : Nat) (h : Stuck p i) : Stuck (p.change keep new) i := by
  obtain ⟨⟨e, he, hb⟩, h2, h3, h4⟩ := h
  exact ⟨⟨e, getElem?_left new he, hb⟩, h2, h3, h4⟩

theorem land_stuck (p : Page) (r i : Nat) (h : Stuck p i) : Stuck (p.land r) i := by
  obtain ⟨h1, h2, h3, h4⟩ := h
  have := land_underWay p r i
  exact ⟨h1, h2, h3, by omega⟩

theorem flies_pos (p : Page) (i r : Nat) (q : Req) (hlt : r < p.sent.length) (hr : p.sent[r]? = some q) (hf : p.flying r = true)
    (hc : q.cause = .submit) (hn : q.node = i) : underWay p i ≠ 0 := by
  intro hu
  have hd := cnt_drop p.sent.length r (flies p i) (flies (p.land r) i) hlt (fun k hk => by
      unfold flies
      show ((if k = r then false else p.flying k) && _) = _
      rw [if_neg hk]
      rfl) (by
      unfold flies
      show ((if r = r then false else p.flying r) && _) = _
      rw [if_pos rfl]
      rfl)
  have : flies p i r = true := by
    unfold flies
    rw [hf, hr]
    simp [hn, hc]
  rw [this] at hd
  rw [underWay_eq] at hu
  have hb : bit true = 1 := rfl
  omega

theorem formError_stuck (p : Page) (r i : Nat) (q : Req) (hi : Inv p) (hr : p.sent[r]? = some q) (hf : p.flying r = true)
    (hc : q.cause = .submit) (h : Stuck p i) : Stuck (p.formError r q.node) i := by
  have hne : q.node ≠ i := fun hn => flies_pos p i r q (hi.fly r hf) hr hf hc hn h.2.2.2
  refine event_stuck _ _ _ _ ?_
  obtain ⟨h1, h2, h3, h4⟩ := land_stuck p r i h
  refine ⟨h1, h2, ?_, h4⟩
  show i ∉ p.restoring ++ [q.node]
  rw [List.mem_append, List.mem_singleton]
  rintro (hx | hx)
  · exact h3 hx
  · exact hne hx.symm

theorem stuck_does (p q : Page) (a : Act) (i : Nat) (hi : Inv p) (h : Stuck p i) (hd : Does p a q) : Stuck q i := by
  obtain ⟨⟨e, he, hb⟩, h2, h3, h4⟩ := h
  have h : Stuck p i := ⟨⟨e, he, hb⟩, h2, h3, h4⟩
  cases hd with
  | loaded =>
    have hq := (fev_spec p).1
    unfold Stuck
    rw [quiet_underWay hq i, hq.elems, hq.disabled, hq.restoring]
    exact h
  | click0 _ _ => exact h
  | click1 _ _ _ _ =>
    refine ⟨⟨e, he, hb⟩, h2, h3, ?_⟩
    rw [send_underWay, h4]
    simp [bit]
  | submit0 _ _ => exact h
  | @submit1 j f hl h1 hf hk hd =>
    have hne : j ≠ i := by
      intro hx
      subst hx
      rw [he] at hf
      cases hf
      rw [hb, h2] at hd
      cases hd
    refine ⟨⟨e, he, hb⟩, ?_, h3, ?_⟩
    · show (if i = j then true else p.disabled i) = true
      rw [if_neg (fun x => hne x.symm)]
      exact h2
    · rw [underWay_eq] at h4 ⊢
      show (p.waiting ++ [_]).countP _ + cnt p.sent.length (flies p i) = 0
      rw [List.countP_append]
      simp only [List.countP_cons, List.countP_nil, hne]
      simp
      simp at h4
      exact h4
  | @seen j hl ho =>
    unfold Page.get
    split
    · exact h
    · refine ⟨⟨e, he, hb⟩, h2, h3, ?_⟩
      rw [send_underWay]
      show underWay p i + _ = 0
      rw [h4]
      simp [bit]
  | @timer r l hw =>
    refine ⟨⟨e, he, hb⟩, h2, h3, ?_⟩
    rw [send_underWay]
    rw [underWay_eq, hw, List.countP_cons] at h4
    rw [underWay_eq]
    show l.countP _ + cnt p.sent.length (flies p i) + _ = 0
    have hn : ¬ r.node = i := by
      intro hx
      rw [hx] at h4
      simp at h4
    simp only [hn, decide_false, Bool.false_and]
    have hb0 : bit false = 0 := rfl
    omega
  | answered _ _ _ => exact event_stuck _ _ _ _ (change_stuck _ _ _ _ (land_stuck _ _ _ h))
  | answerErr hr hf _ hc => exact formError_stuck p _ i _ hi hr hf hc h
  | answerLost _ _ _ _ => exact land_stuck _ _ _ h
  | failsForm hr hf hc => exact formError_stuck p _ i _ hi hr hf hc h
  | fails _ _ _ _ => exact event_stuck _ _ _ _ (change_stuck _ _ _ _ (land_stuck _ _ _ h))
  | failsLost _ _ _ _ => exact land_stuck _ _ _ h
  | @restore j l hw =>
    rw [hw, List.mem_cons] at h3
    refine ⟨⟨e, he, hb⟩, ?_, fun hx => h3 (.inr hx), h4⟩
    show (if i = j then false else p.disabled i) = true
    rw [if_neg (fun x => h3 (.inl x))]
    exact h2

/-- C102.  A form whose buttons are disabled while no submission is under way and no error is shown stays so, whatever happens. -/
theorem C102_stuck (l : List Elem) (acts more : List Act) (p q : Page) (h : Runs (start l) acts p) (i : Nat) (hs : Stuck p i)
    (hr : Runs p more q) : step q (.submit i) = none := by
  have : Inv q ∧ Stuck q i := by
    induction hr with
    | nil => exact ⟨runs_inv h, hs⟩
    | snoc _ hst ih =>
      have hd := step_does _ _ _ ih.1.toBooks hst
      exact ⟨inv_does _ _ _ ih.1 hd, stuck_does _ _ _ i ih.1 ih.2 hd⟩
  obtain ⟨-, ⟨e, he, hb⟩, hd, -⟩ := this
  simp [step, he, hb, hd]

/-! ### samples and refutations -/

/-- A history, computed. -/
def runAll (p : Page) : List Act → Option Page
  | [] => some p
  | a :: l => (step p a).bind (fun q => runAll q l)

theorem runs_app {p q r : Page} {l m : List Act} (h : Runs p l q) (g : Runs q m r) : Runs p (l ++ m) r := by
  induction g with
  | nil => rw [List.append_nil]; exact h
  | snoc _ hs ih => rw [← List.append_assoc]; exact .snoc ih hs

theorem runs_of (l : List Act) : ∀ (p q : Page), runAll p l = some q → Runs p l q := by
  induction l with
  | nil => intro p q h; cases h; exact .nil _
  | cons a l ih =>
    intro p q h
    unfold runAll at h
    cases hs : step p a with
    | none => rw [hs] at h; cases h
    | some p1 =>
      rw [hs] at h
      have h1 : Runs p [a] p1 := by
        have := Runs.snoc (l := []) (.nil p) hs
        exact this
      exact runs_app h1 (ih p1 q h)

end Nts.Js
