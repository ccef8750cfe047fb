import Verif.Props.Client
/-
The script for browsers: the body of a form (C101), samples for C99, C100 and C102, and what does not hold.
-/
set_option autoImplicit false
namespace Nts.Js

/-! ### C101: the body of a form -/

/-- A control that is successful in the sense of HTML: it has a name, is not disabled, not a button, and checked if it can be. -/
def Successful (c : Control) : Prop :=
  c.name ≠ [] ∧ c.disabled = false ∧ c.type ≠ .button ∧ (c.type = .box → c.checked = true)

theorem formData_mem (l : List Control) (x : Str × Str) :
    x ∈ formData l ↔ ∃ c ∈ l, Successful c ∧ x = (c.name, c.value) := by
  unfold formData Successful
  simp only [List.mem_map, List.mem_filter, Bool.and_eq_true, Bool.not_eq_true', decide_eq_true_eq, Bool.or_eq_true,
    List.isEmpty_eq_false_iff]
  constructor
  · rintro ⟨c, ⟨hc, ⟨⟨h1, h2⟩, h3⟩, h4⟩, rfl⟩
    exact ⟨c, hc, ⟨h2, h1, h3, fun hb => by rcases h4 with h | h; exact absurd hb h; exact h⟩, rfl⟩
  · rintro ⟨c, hc, ⟨h1, h2, h3, h4⟩, rfl⟩
    refine ⟨c, ⟨hc, ⟨⟨h2, h1⟩, h3⟩, ?_⟩, rfl⟩
    by_cases hb : c.type = .box
    · exact .inr (h4 hb)
    · exact .inl hb

/-- C101, the part that holds: a form without a named file control is sent as its successful controls, each once and in order.
Missing: forms with a file control (`C101_twice`, `C101_refuted`). -/
theorem C101_plain_partial (l : List Control) (h : ∀ c ∈ l, c.type = .file → c.name = []) :
    body l = (l.filter (fun c => !c.disabled && !c.name.isEmpty && decide (c.type ≠ .button) &&
      (decide (c.type ≠ .box) || c.checked))).map (fun c => (c.name, c.value)) ∧
    ∀ x, x ∈ body l ↔ ∃ c ∈ l, Successful c ∧ x = (c.name, c.value) := by
  have hf : hasFile l = false := by
    unfold hasFile
    rw [List.any_eq_false]
    intro c hc hx
    rw [Bool.and_eq_true, decide_eq_true_eq, Bool.not_eq_true'] at hx
    rw [h c hc hx.2] at hx
    exact absurd hx.1 (by decide)
  have hb : body l = formData l := by
    unfold body
    rw [hf]
    rfl
  rw [hb]
  exact ⟨rfl, formData_mem l⟩

/-- C101.  With a file control every successful control is still sent. -/
theorem C101_sent (l : List Control) (c : Control) (hc : c ∈ l) (hs : Successful c) : (c.name, c.value) ∈ body l := by
  have := (formData_mem l _).2 ⟨c, hc, hs, rfl⟩
  unfold body
  split
  · exact List.mem_append_left _ this
  · exact this

/-- C101.  But every successful control that is not a file and has no `[]` in its name is then sent twice. -/
theorem C101_twice (l : List Control) (f c : Control) (hf : f ∈ l) (hft : f.type = .file) (hfn : f.name ≠ [])
    (hc : c ∈ l) (hs : Successful c) (ht : c.type ≠ .file) (hn : contains c!"[]" c.name = false) :
    2 ≤ (body l).count (c.name, c.value) := by
  have h1 : hasFile l = true := by
    unfold hasFile
    rw [List.any_eq_true]
    exact ⟨f, hf, by simp [hft, hfn]⟩
  have h2 : (c.name, c.value) ∈ formData l := (formData_mem l _).2 ⟨c, hc, hs, rfl⟩
  have h3 : (c.name, c.value) ∈ appended l := by
    unfold appended
    refine List.mem_map.2 ⟨c, List.mem_filter.2 ⟨hc, ?_⟩, rfl⟩
    obtain ⟨a, b, d, e⟩ := hs
    by_cases hb : c.type = .box
    · simp [a, ht, hn, e hb]
    · simp [a, ht, hn, hb]
  unfold body
  rw [h1]
  simp only [if_true, List.count_append]
  have := List.count_pos_iff.2 h2
  have := List.count_pos_iff.2 h3
  omega

namespace Sample

def fileForm : List Control :=
  [⟨c!"doc", .file, c!"a.txt", false, false⟩, ⟨c!"user", .other, c!"Ann", false, false⟩,
   ⟨c!"plan", .other, c!"old", false, true⟩, ⟨c!"go", .button, c!"Send", false, false⟩]

end Sample

/-- C101 is false of the script: with a file control the field `user` is sent twice, and the disabled field and the button, which are
not successful, are sent, too. -/
theorem C101_refuted : body Sample.fileForm =
    [(c!"doc", c!"a.txt"), (c!"user", c!"Ann"), (c!"user", c!"Ann"), (c!"plan", c!"old"), (c!"go", c!"Send")] := by
  decide +kernel

/-- A form without a file. -/
example : body (Sample.fileForm.drop 1) = [(c!"user", c!"Ann")] := by decide +kernel

/-! ### samples -/

namespace Sample

def only (k : Kind) : Kind → Bool := fun l => decide (l = k)

/-- A page: an element that asks by itself, one that asks when it is clicked on and whose answer goes to the box, the box, a form whose
answer goes to the box, and an element that asks when it is visible. -/
def site : List Elem :=
  [⟨c!"a", c!"/auto", [], [], only .auto, false⟩, ⟨c!"b", c!"/click", [], c!"box", only .click, false⟩,
   ⟨c!"box", [], [], [], fun _ => false, false⟩, ⟨c!"f", [], c!"/form", c!"box", only .form, true⟩,
   ⟨c!"v", c!"/seen", [], [], only .visible, false⟩]

/-- The page is loaded; the user clicks twice; the first answer replaces the box by one with an element that asks by itself; then the
form is sent; its answer replaces the box again; then the last element is seen. -/
def busy : List Act :=
  [.loaded, .click 1, .click 1, .answer 1 (fun i => decide (i ≠ 2))
     [⟨c!"box", [], [], [], fun _ => false, false⟩, ⟨c!"c", c!"/inner", [], [], only .auto, false⟩],
   .submit 3, .timer, .answer 4 (fun i => decide (i ≠ 5 ∧ i ≠ 6)) [⟨c!"box", [], [], [], fun _ => false, false⟩], .seen 4,
   .fails 0 (fun _ => true)]

def end_ (l : List Elem) (acts : List Act) : Page := (runAll (start l) acts).getD (start l)

theorem end_runs (l : List Elem) (acts : List Act) (h : (runAll (start l) acts).isSome = true) :
    Runs (start l) acts (end_ l acts) := by
  refine runs_of _ _ _ ?_
  unfold end_
  cases hx : runAll (start l) acts with
  | none => rw [hx] at h; cases h
  | some q => rfl

theorem busy_runs : Runs (start site) busy (end_ site busy) := end_runs _ _ (by decide +kernel)

/-- What was sent: by which element, where, and which element the answer replaces. -/
example : (end_ site busy).sent.map (fun r => (r.node, r.url, r.target)) =
    [(0, c!"/auto", some 0), (1, c!"/click", some 2), (1, c!"/click", some 2), (6, c!"/inner", some 6), (3, c!"/form", some 5),
     (4, c!"/seen", some 4)] := by decide +kernel

/-- The events: the answers to requests 1 and 4, and the failure of request 0. -/
example : (end_ site busy).events = [(true, 1), (true, 4), (false, 0)] := by decide +kernel

/-- The hypotheses of `C99_auto`, `C99_click`, `C99_form` and `C99_visible` are met by elements of this page. -/
example : wasLoaded busy = true ∧ (end_ site busy).live 0 = true ∧ (end_ site busy).live 1 = true ∧
    asked (end_ site busy) 0 .auto = 1 ∧ asked (end_ site busy) 1 .click = 2 ∧ asked (end_ site busy) 4 .visible = 1 ∧
    asked (end_ site busy) 3 .submit = 1 := by decide +kernel

end Sample

/-! ### what does not hold -/

/-- C100 is false of the script: an element with a `data-wrap` that names no element sends a request; the answer arrives, and no event
is dispatched. -/
theorem C100_refuted : ∃ (l : List Elem) (acts : List Act) (p : Page), Runs (start l) acts p ∧
    p.sent.length = 1 ∧ p.flying 0 = false ∧ p.events = [] :=
  ⟨[⟨c!"b", c!"/click", [], c!"gone", Sample.only .click, false⟩], [.loaded, .click 0, .answer 0 (fun _ => true) []], _,
    Sample.end_runs _ _ (by decide +kernel), by decide +kernel⟩

namespace Sample
/-- A form whose answer goes to another element. -/
def wrapped : List Elem := [⟨c!"f", [], c!"/form", c!"box", only .form, true⟩, ⟨c!"box", [], [], [], fun _ => false, false⟩]
def sentOnce : List Act :=
  [.loaded, .submit 0, .timer, .answer 0 (fun i => decide (i ≠ 1)) [⟨c!"box", [], [], [], fun _ => false, false⟩]]
end Sample

/-- C102 is false of the script in its second half: a form whose answer goes to another element (`data-wrap`) stays in the document
with its buttons disabled, and can never be submitted again, although its submission succeeded and is over. -/
theorem C102_refuted : ∃ (l : List Elem) (acts : List Act) (p : Page), Runs (start l) acts p ∧
    p.live 0 = true ∧ p.events = [(true, 0)] ∧ underWay p 0 = 0 ∧
    ∀ (more : List Act) (q : Page), Runs p more q → step q (.submit 0) = none := by
  refine ⟨Sample.wrapped, Sample.sentOnce, _, Sample.end_runs _ _ (by decide +kernel), by decide +kernel, by decide +kernel,
    by decide +kernel, fun more q hr => ?_⟩
  refine C102_stuck _ _ more _ q (Sample.end_runs Sample.wrapped Sample.sentOnce (by decide +kernel)) 0 ⟨⟨_, rfl, rfl⟩, ?_, ?_, ?_⟩ hr
  · decide +kernel
  · decide +kernel
  · decide +kernel

/-- And in its first half for forms whose button has no `type` attribute: two submissions are under way. -/
theorem C102_double_refuted : ∃ (l : List Elem) (acts : List Act) (p : Page), Runs (start l) acts p ∧ underWay p 0 = 2 :=
  ⟨[⟨c!"f", [], c!"/form", [], Sample.only .form, false⟩], [.loaded, .submit 0, .submit 0], _,
    Sample.end_runs _ _ (by decide +kernel), by decide +kernel⟩

/-- A form of one's own: after a failure and the delay it can be submitted again (the hypotheses of `C102_retry`). -/
example : (runAll (start Sample.wrapped) [.loaded, .submit 0, .timer, .fails 0 (fun _ => true), .restore, .submit 0]).isSome = true ∧
    (runAll (start Sample.wrapped) [.loaded, .submit 0, .timer, .fails 0 (fun _ => true), .submit 0]).isSome = false := by
  decide +kernel

end Nts.Js
