import Verif.Model.CacheRm
import Verif.Props.CacheFs
/-
C97: cache files while the script that cleans the cache runs.
-/
set_option autoImplicit false
namespace Nts.Rm

/-! ### steps -/

theorem go_phase (s : Sys) (p q : Nat) (x : Phase) : (s.go p x).phase q = if q = p then x else s.phase q := rfl

theorem to_sweep (s : Sys) (r q : Nat) (x : Sweep) : (s.to r x).sweep q = if q = r then x else s.sweep q := rfl

theorem put_node (s : Sys) (i j : Nat) (f : Bytes) : (s.put i f).node j = if j = i then (f, s.now) else s.node j := rfl

/-- Do the actions one after the other. -/
def play (c : Cfg) : Sys → List Act → Option Sys
  | s, [] => some s
  | s, a :: l => (step c s a).bind (play c · l)

theorem Runs.append {c : Cfg} {s s1 s2 : Sys} {l m : List Act} (h : Runs c s l s1) (h' : Runs c s1 m s2) :
    Runs c s (l ++ m) s2 := by
  induction h' with
  | nil => simpa using h
  | snoc _ hs ih => rw [← List.append_assoc]; exact .snoc ih hs

theorem play_runs {c : Cfg} : ∀ {l : List Act} {s s' : Sys}, play c s l = some s' → Runs c s l s'
  | [], s, s', h => by injection h with h; subst h; exact .nil _
  | a :: l, s, s', h => by
    unfold play at h
    obtain ⟨s1, h1, h2⟩ := Option.bind_eq_some_iff.1 h
    exact Runs.append (l := [a]) (.snoc (l := []) (.nil _) h1) (play_runs h2)

/-- The result of a render that has ended: its output and whether there was an error. -/
def endOf (s : Sys) (p : Nat) : Option (Bytes × Bool) := match s.phase p with | .done x e => some (x, e) | _ => none

/-- A step of render `p` that touches neither the files nor the directory. -/
inductive Calm (c : Cfg) (s : Sys) (p : Nat) : Act → Phase → Phase → Prop
  | missing : s.link = none → Calm c s p (.exists_ p) .start .evaluating
  | found (i : Nat) : s.link = some i → Calm c s p (.exists_ p) .start .found
  | clock : Calm c s p (.clock p) .found (.aged s.now)
  | gone (t : Nat) : s.link = none → Calm c s p (.metadata p) (.aged t) .evaluating
  | old (t i : Nat) : s.link = some i → t > (s.node i).2 + c.life → Calm c s p (.metadata p) (.aged t) .evaluating
  | good (t i : Nat) : s.link = some i → t ≤ (s.node i).2 + c.life → Calm c s p (.metadata p) (.aged t) .opening
  | opened (i : Nat) : s.link = some i → Calm c s p (.open_ p) .opening (.reading i [])
  | lost : s.link = none → Calm c s p (.open_ p) .opening (unread c p)
  | more (i : Nat) (acc : Bytes) (k : Nat) : (s.node i).1.drop acc.length ≠ [] →
      Calm c s p (.read p k) (.reading i acc) (.reading i (acc ++ ((s.node i).1.drop acc.length).take (k + 1)))
  | read (i : Nat) (acc : Bytes) (k : Nat) : (s.node i).1.drop acc.length = [] →
      Calm c s p (.read p k) (.reading i acc) (readEnd c p acc)
  | noDir : s.link = none → s.dir = false → Calm c s p (.create p) .creating (.done (c.text p) true)
  | written (i off k : Nat) : (c.text p).drop off = [] → Calm c s p (.write p k) (.writing i off) (.done (c.text p) false)

/-- A failure of a system call of a render. -/
inductive Failed (c : Cfg) (p : Nat) : Act → Phase → Phase → Prop
  | open_ : Failed c p (.openFails p) .opening (unread c p)
  | read (i : Nat) (acc : Bytes) : Failed c p (.readFails p) (.reading i acc) (unread c p)
  | mkdir : Failed c p (.mkdirFails p) .evaluating (.done (c.text p) true)
  | create : Failed c p (.createFails p) .creating (.done (c.text p) true)
  | write (i off : Nat) : Failed c p (.writeFails p) (.writing i off) (.done (c.text p) true)

/-- The steps, sorted by what they change. -/
inductive Does (c : Cfg) (s : Sys) : Act → Sys → Prop
  | calm {a : Act} (p : Nat) (x : Phase) : Calm c s p a (s.phase p) x → Does c s a (s.go p x)
  | failed {a : Act} (p : Nat) (x : Phase) : Failed c p a (s.phase p) x → Does c s a (s.go p x)
  | mkdir (p : Nat) : s.phase p = .evaluating → Does c s (.mkdir p) { s.go p .creating with dir := true }
  | trunc (p i : Nat) : s.phase p = .creating → s.link = some i → Does c s (.create p) ((s.put i []).go p (.writing i 0))
  | make (p : Nat) : s.phase p = .creating → s.link = none → s.dir = true →
      Does c s (.create p) { (s.put s.next []).go p (.writing s.next 0) with link := some s.next, next := s.next + 1 }
  | write (p i off k : Nat) : s.phase p = .writing i off → (c.text p).drop off ≠ [] →
      Does c s (.write p k) ((s.put i (Fs.writeAt (s.node i).1 off (((c.text p).drop off).take (k + 1)))).go p
        (.writing i (off + (((c.text p).drop off).take (k + 1)).length)))
  | crash (p : Nat) : (∀ x e, s.phase p ≠ .done x e) → Does c s (.crash p) (s.go p .crashed)
  | time (n : Nat) : Does c s (.time n) { s with now := s.now + n }
  | date (r : Nat) : s.sweep r = .idle → Does c s (.date r) (s.to r (.timed s.now))
  | doom (r t i : Nat) : s.sweep r = .timed t → s.link = some i → expired c t (s.node i).2 = true →
      Does c s (.stat r) (s.to r .doomed)
  | spare (r t : Nat) : s.sweep r = .timed t → Does c s (.stat r) (s.to r .idle)
  | rm (r : Nat) : s.sweep r = .doomed → Does c s (.rm r) { s.to r .idle with link := none }
  | rmFails (r : Nat) : s.sweep r = .doomed → Does c s (.rmFails r) (s.to r .idle)
  | rmdir (r : Nat) : s.sweep r = .idle → s.link = none → Does c s (.rmdir r) { s with dir := false }

theorem step_does {c : Cfg} {s s' : Sys} {a : Act} (hs : step c s a = some s') : Does c s a s' := by
  cases a with
  | exists_ p =>
    simp only [step] at hs
    split at hs
    · next hp =>
      injection hs with hs; subst hs
      refine .calm p _ ?_
      rw [hp]
      cases hl : s.link with
      | none => exact .missing hl
      | some i => exact .found i hl
    · cases hs
  | clock p =>
    simp only [step] at hs
    split at hs
    · next hp => injection hs with hs; subst hs; exact .calm p _ (hp ▸ .clock)
    · cases hs
  | metadata p =>
    simp only [step] at hs
    split at hs
    · next t hp =>
      injection hs with hs; subst hs
      refine .calm p _ ?_
      rw [hp]
      cases hl : s.link with
      | none => exact .gone t hl
      | some i =>
        dsimp only
        split
        · next h => exact .old t i hl h
        · next h => exact .good t i hl (Nat.le_of_not_lt h)
    · cases hs
  | open_ p =>
    simp only [step] at hs
    split at hs
    · next hp =>
      injection hs with hs; subst hs
      refine .calm p _ ?_
      rw [hp]
      cases hl : s.link with
      | none => exact .lost hl
      | some i => exact .opened i hl
    · cases hs
  | openFails p =>
    simp only [step] at hs
    split at hs
    · next hp => injection hs with hs; subst hs; exact .failed p _ (hp ▸ .open_)
    · cases hs
  | read p k =>
    simp only [step] at hs
    split at hs
    · next i acc hp =>
      split at hs
      · next h => injection hs with hs; subst hs; exact .calm p _ (hp ▸ .read i acc k h)
      · next h => injection hs with hs; subst hs; exact .calm p _ (hp ▸ .more i acc k h)
    · cases hs
  | readFails p =>
    simp only [step] at hs
    split at hs
    · next i acc hp => injection hs with hs; subst hs; exact .failed p _ (hp ▸ .read i acc)
    · cases hs
  | mkdir p =>
    simp only [step] at hs
    split at hs
    · next hp => injection hs with hs; subst hs; exact .mkdir p hp
    · cases hs
  | mkdirFails p =>
    simp only [step] at hs
    split at hs
    · next hp => injection hs with hs; subst hs; exact .failed p _ (hp ▸ .mkdir)
    · cases hs
  | create p =>
    simp only [step] at hs
    split at hs
    · next hp =>
      split at hs
      · next i hl => injection hs with hs; subst hs; exact .trunc p i hp hl
      · next hl =>
        split at hs
        · next hd => injection hs with hs; subst hs; exact .make p hp hl hd
        · next hd =>
          injection hs with hs; subst hs
          exact .calm p _ (hp ▸ .noDir hl (by simpa using hd))
    · cases hs
  | createFails p =>
    simp only [step] at hs
    split at hs
    · next hp => injection hs with hs; subst hs; exact .failed p _ (hp ▸ .create)
    · cases hs
  | write p k =>
    simp only [step] at hs
    split at hs
    · next i off hp =>
      split at hs
      · next h => injection hs with hs; subst hs; exact .calm p _ (hp ▸ .written i off k h)
      · next h => injection hs with hs; subst hs; exact .write p i off k hp h
    · cases hs
  | writeFails p =>
    simp only [step] at hs
    split at hs
    · next i off hp => injection hs with hs; subst hs; exact .failed p _ (hp ▸ .write i off)
    · cases hs
  | crash p =>
    simp only [step] at hs
    split at hs
    · cases hs
    · next hp => injection hs with hs; subst hs; exact .crash p hp
  | time n =>
    simp only [step, Option.some.injEq] at hs
    subst hs; exact .time n
  | date r =>
    simp only [step] at hs
    split at hs
    · next hp => injection hs with hs; subst hs; exact .date r hp
    · cases hs
  | stat r =>
    simp only [step] at hs
    split at hs
    · next t hp =>
      injection hs with hs; subst hs
      split
      · next h =>
        obtain ⟨i, hl, he⟩ := (Option.any_eq_true _ _).1 h
        exact .doom r t i hp hl he
      · exact .spare r t hp
    · cases hs
  | rm r =>
    simp only [step] at hs
    split at hs
    · next hp => injection hs with hs; subst hs; exact .rm r hp
    · cases hs
  | rmFails r =>
    simp only [step] at hs
    split at hs
    · next hp => injection hs with hs; subst hs; exact .rmFails r hp
    · cases hs
  | rmdir r =>
    simp only [step] at hs
    split at hs
    · next hp =>
      split at hs
      · next hl => injection hs with hs; subst hs; exact .rmdir r hp hl
      · cases hs
    · cases hs

theorem now_mono {c : Cfg} {s s' : Sys} {a : Act} (hs : step c s a = some s') : s.now ≤ s'.now := by
  cases step_does hs
  all_goals first | exact Nat.le_refl _ | exact Nat.le_add_right _ _

/-! ### where the bytes come from -/

/-- The same configuration without the script. -/
def toFs (c : Cfg) : Fs.Cfg := ⟨c.text, c.bifs, c.life, c.valid⟩

abbrev From (c : Cfg) (x : Bytes) : Prop := Fs.FromTexts (toFs c) x

theorem from_text (c : Cfg) (p : Nat) : From c (c.text p) := Fs.fromTexts_text (toFs c) p

theorem from_nil (c : Cfg) : From c [] := Fs.fromTexts_nil (toFs c)

/-- The invariant of one render. -/
def PhaseOk (c : Cfg) (p : Nat) : Phase → Prop
  | .reading _ acc => From c acc
  | .writing _ off => off ≤ (c.text p).length
  | .done out _ => From c out
  | _ => True

/-- The invariant of the system. -/
def SysOk (c : Cfg) (s : Sys) : Prop := (∀ i, From c (s.node i).1) ∧ ∀ p, PhaseOk c p (s.phase p)

theorem ok_unread (c : Cfg) (p : Nat) : PhaseOk c p (unread c p) := by
  change From c (if c.bifs p then c.text p else [])
  split
  · exact from_text c p
  · exact from_nil c

theorem ok_calm {c : Cfg} {s : Sys} {p : Nat} {a : Act} {x y : Phase} (h : SysOk c s) (hx : PhaseOk c p x) (hc : Calm c s p a x y) :
    PhaseOk c p y := by
  cases hc
  all_goals first
    | trivial
    | exact from_nil c
    | exact from_text c p
    | exact ok_unread c p
    | skip
  · next i acc k hne => exact Fs.fromTexts_read (h.1 i) hx hne
  · next i acc _ _ =>
    unfold readEnd
    split
    · exact hx
    · exact ok_unread c p

theorem ok_failed {c : Cfg} {p : Nat} {a : Act} {x y : Phase} (hc : Failed c p a x y) : PhaseOk c p y := by
  cases hc
  all_goals first | exact ok_unread c p | exact from_text c p

theorem ok_phase {c : Cfg} {s : Sys} {p : Nat} {x : Phase} (h : ∀ p, PhaseOk c p (s.phase p)) (hx : PhaseOk c p x) (q : Nat) :
    PhaseOk c q ((s.go p x).phase q) := by
  rw [go_phase]
  split
  · next hq => subst hq; exact hx
  · exact h q

theorem ok_put {c : Cfg} {s : Sys} {i : Nat} {f : Bytes} (h : ∀ i, From c (s.node i).1) (hf : From c f) (j : Nat) :
    From c ((s.put i f).node j).1 := by
  rw [put_node]
  split
  · exact hf
  · exact h j

theorem ok_step {c : Cfg} {s s' : Sys} {a : Act} (h : SysOk c s) (hs : step c s a = some s') : SysOk c s' := by
  cases step_does hs with
  | calm p x hc => exact ⟨h.1, ok_phase h.2 (ok_calm h (h.2 p) hc)⟩
  | failed p x hc => exact ⟨h.1, ok_phase h.2 (ok_failed hc)⟩
  | mkdir p hp => exact ⟨h.1, ok_phase (s := s) (x := .creating) h.2 trivial⟩
  | trunc p i hp hl => exact ⟨ok_put h.1 (from_nil c), ok_phase (s := s) (x := .writing i 0) h.2 (Nat.zero_le _)⟩
  | make p hp hl hd => exact ⟨ok_put h.1 (from_nil c), ok_phase (s := s) (x := .writing s.next 0) h.2 (Nat.zero_le _)⟩
  | write p i off k hp hne =>
    have ho := h.2 p
    rw [hp] at ho
    have ho : off ≤ (c.text p).length := ho
    refine ⟨ok_put h.1 (Fs.fromTexts_writeAt (c := toFs c) (h.1 i) ho), ok_phase (s := s) h.2 ?_⟩
    change off + _ ≤ _
    simp
    omega
  | crash p hp => exact ⟨h.1, ok_phase h.2 trivial⟩
  | time n => exact h
  | date r hr => exact h
  | doom r t i hr hl he => exact h
  | spare r t hr => exact h
  | rm r hr => exact h
  | rmFails r hr => exact h
  | rmdir r hr hl => exact h

theorem ok_runs {c : Cfg} {s s' : Sys} {l : List Act} (h : SysOk c s) (hr : Runs c s l s') : SysOk c s' := by
  induction hr with
  | nil => exact h
  | snoc _ hs ih => exact ok_step ih hs

/-- **C97 (origin).** Under any interleaving of renders and runs of the script, with failures and crashes anywhere, what a block
gives has at every position a byte of some render's text at this position or a byte 0, and is not longer than all texts. -/
theorem C97_origin (c : Cfg) (now p : Nat) (l : List Act) (s : Sys) (out : Bytes) (err : Bool)
    (h : Runs c (fresh now) l s) (ho : s.phase p = .done out err) :
    (∀ (i : Nat) (b : UInt8), out[i]? = some b → b = 0 ∨ ∃ q, (c.text q)[i]? = some b) ∧ ∃ q, out.length ≤ (c.text q).length := by
  have hok : SysOk c (fresh now) := ⟨fun _ => from_nil c, fun _ => trivial⟩
  have := (ok_runs hok h).2 p
  rw [ho] at this
  exact this

/-! ### why there is an error -/

/-- Everything a render has seen is still there. -/
def SeenOk (s : Sys) : Phase → Prop
  | .found => s.link.isSome = true
  | .aged _ => s.link.isSome = true
  | .opening => s.link.isSome = true
  | .creating => s.dir = true
  | .done _ err => err = false
  | _ => True

/-- Actions that are not failures of a call of a render and not removals. -/
def Act.harmless : Act → Bool
  | .openFails _ | .readFails _ | .mkdirFails _ | .createFails _ | .writeFails _ | .rm _ | .rmdir _ => false
  | _ => true

theorem seen_step {c : Cfg} {s s' : Sys} {a : Act} (hv : ∀ x, From c x → c.valid x = true) (hok : SysOk c s)
    (h : ∀ p, SeenOk s (s.phase p)) (ha : a.harmless = true) (hs : step c s a = some s') : ∀ p, SeenOk s' (s'.phase p) := by
  have up : ∀ {t : Sys} (x : Phase), (s.link.isSome = true → t.link.isSome = true) → (s.dir = true → t.dir = true) →
      SeenOk s x → SeenOk t x := by
    intro t x h1 h2 hx
    cases x <;> first | trivial | exact h1 hx | exact h2 hx | exact hx
  have both : ∀ {t : Sys} {p : Nat} {x : Phase}, (∀ q, t.phase q = if q = p then x else s.phase q) →
      (s.link.isSome = true → t.link.isSome = true) → (s.dir = true → t.dir = true) → SeenOk t x →
      ∀ q, SeenOk t (t.phase q) := by
    intro t p x h0 h1 h2 hx q
    rw [h0 q]
    split
    · exact hx
    · exact up _ h1 h2 (h q)
  cases step_does hs with
  | calm p x hc =>
    refine both (fun q => go_phase s p q x) id id ?_
    have hp := h p
    have hpo := hok.2 p
    revert hc hp hpo
    generalize s.phase p = y
    intro hc hp hpo
    cases hc with
    | missing hl => trivial
    | found i hl => change s.link.isSome = true; rw [hl]; rfl
    | clock => exact hp
    | gone t hl => trivial
    | old t i hl _ => trivial
    | good t i hl _ => exact hp
    | opened i hl => trivial
    | lost hl =>
      have hp : s.link.isSome = true := hp
      rw [hl] at hp; cases hp
    | more i acc k _ => trivial
    | read i acc _ _ =>
      have : readEnd c p acc = .done acc false := by unfold readEnd; rw [if_pos (hv acc hpo)]
      rw [this]; rfl
    | noDir hl hd =>
      have hp : s.dir = true := hp
      rw [hd] at hp; cases hp
    | written i off _ _ => rfl
  | failed p x hc => revert hc; generalize s.phase p = y; intro hc; cases hc <;> cases ha
  | mkdir p hp => exact both (fun q => rfl) id (fun _ => rfl) rfl
  | trunc p i hp hl => exact both (fun q => rfl) id id trivial
  | make p hp hl hd => exact both (fun q => rfl) (fun _ => rfl) id trivial
  | write p i off k hp hne => exact both (fun q => rfl) id id trivial
  | crash p hp => exact both (fun q => rfl) id id trivial
  | time n => exact fun q => up _ id id (h q)
  | date r hr => exact fun q => up _ id id (h q)
  | doom r t i hr hl he => exact fun q => up _ id id (h q)
  | spare r t hr => exact fun q => up _ id id (h q)
  | rm r hr => cases ha
  | rmFails r hr => exact fun q => up _ id id (h q)
  | rmdir r hr hl => cases ha

/-- **C97 (why there is an error).** When every text that can be in the file is UTF-8 (see `C97_origin` for which these are) and
the block of some render ends with an error, then a call of a render has failed, or the script has removed the entry or its
directory. -/
theorem C97_error (c : Cfg) (now p : Nat) (l : List Act) (s : Sys) (out : Bytes)
    (hv : ∀ x : Bytes, (∀ (i : Nat) (b : UInt8), x[i]? = some b → b = 0 ∨ ∃ q, (c.text q)[i]? = some b) →
      (∃ q, x.length ≤ (c.text q).length) → c.valid x = true)
    (h : Runs c (fresh now) l s) (ho : s.phase p = .done out true) :
    ∃ a ∈ l, (∃ q, a = .openFails q ∨ a = .readFails q ∨ a = .mkdirFails q ∨ a = .createFails q ∨ a = .writeFails q) ∨
      (∃ r, a = .rm r ∨ a = .rmdir r) := by
  apply Classical.byContradiction
  intro hno
  have key : (∀ a ∈ l, a.harmless = true) → SysOk c s ∧ ∀ p, SeenOk s (s.phase p) := by
    clear ho hno
    induction h with
    | nil => exact fun _ => ⟨⟨fun _ => from_nil c, fun _ => trivial⟩, fun _ => trivial⟩
    | snoc _ hs ih =>
      intro hl
      obtain ⟨i1, i2⟩ := ih (fun a ha => hl a (List.mem_append_left _ ha))
      exact ⟨ok_step i1 hs, seen_step (fun x hx => hv x hx.1 hx.2) i1 i2 (hl _ (by simp)) hs⟩
  have := (key (fun a ha => by cases a <;> first | rfl | exact absurd ⟨_, ha, by simp⟩ hno)).2 p
  rw [ho] at this
  cases this

/-! ### what is removed -/

theorem timed_le {c : Cfg} {now r t : Nat} {l : List Act} {s : Sys} (h : Runs c (fresh now) l s) (hr : s.sweep r = .timed t) :
    t ≤ s.now := by
  induction h with
  | nil => cases hr
  | @snoc s1 s2 l a h1 hs ih =>
    have same : ∀ {t' : Sys}, t'.sweep = s1.sweep → s1.now ≤ t'.now → t'.sweep r = .timed t → t ≤ t'.now := by
      intro t' e1 e2 e3
      rw [e1] at e3
      exact Nat.le_trans (ih e3) e2
    cases step_does hs with
    | time n => exact same rfl (Nat.le_add_right _ _) hr
    | date r' hr' =>
      rw [to_sweep] at hr
      split at hr
      · injection hr with hr; subst hr; exact Nat.le_refl _
      · exact ih hr
    | doom r' t' i _ _ _ =>
      rw [to_sweep] at hr
      split at hr
      · cases hr
      · exact ih hr
    | spare r' t' _ =>
      rw [to_sweep] at hr
      split at hr
      · cases hr
      · exact ih hr
    | rm r' _ =>
      change (s1.to r' .idle).sweep r = _ at hr
      rw [to_sweep] at hr
      split at hr
      · cases hr
      · exact ih hr
    | rmFails r' _ =>
      rw [to_sweep] at hr
      split at hr
      · cases hr
      · exact ih hr
    | _ => exact same rfl (Nat.le_refl _) hr

/-- Does the action write to the file of the entry? -/
def Act.stores : Act → Bool
  | .create _ | .write _ _ => true
  | _ => false

/-- The decision of run `r` before the end of the history `l`. -/
def Decided (c : Cfg) (now r : Nat) (l : List Act) (s : Sys) : Prop :=
  ∃ l1 l2 s1 i, l = l1 ++ .stat r :: l2 ∧ Runs c (fresh now) l1 s1 ∧ s1.link = some i ∧
    (∃ life, c.lifeRm = some life ∧ ((s1.node i).2 : Int) + life ≤ s1.now) ∧ (∀ a ∈ l2, a ≠ .rm r ∧ a ≠ .stat r) ∧
    s1.now ≤ s.now ∧ ((∀ a ∈ l2, a.stores = false) → s.node = s1.node ∧ (s.link = none ∨ s.link = some i))

theorem expired_iff {c : Cfg} {t m : Nat} : expired c t m = true ↔ ∃ life, c.lifeRm = some life ∧ (t : Int) - m ≥ life := by
  unfold expired
  rw [Option.any_eq_true]
  simp

theorem decided {c : Cfg} {now : Nat} {l : List Act} {s : Sys} (h : Runs c (fresh now) l s) :
    ∀ r, s.sweep r = .doomed → Decided c now r l s := by
  induction h with
  | nil => intro r hr; cases hr
  | @snoc s1 s2 l a h1 hs ih =>
    intro r hr
    have keep : s1.sweep r = .doomed → a ≠ .rm r → a ≠ .stat r → (a.stores = false → s2.node = s1.node) →
        (a.stores = false → s2.link = none ∨ s2.link = s1.link) → Decided c now r (l ++ [a]) s2 := by
      intro e1 e2 e2' e3 e4
      obtain ⟨l1, l2, t, i, q1, q2, q3, q4, q5, q5', q6⟩ := ih r e1
      refine ⟨l1, l2 ++ [a], t, i, by rw [q1]; simp, q2, q3, q4, ?_, Nat.le_trans q5' (now_mono hs), ?_⟩
      · intro b hb
        rcases List.mem_append.1 hb with hb | hb
        · exact q5 b hb
        · rw [List.mem_singleton.1 hb]; exact ⟨e2, e2'⟩
      · intro hb
        obtain ⟨k1, k2⟩ := q6 (fun b hb' => hb b (List.mem_append_left _ hb'))
        have ha := hb a (by simp)
        refine ⟨(e3 ha).trans k1, ?_⟩
        rcases e4 ha with h | h
        · exact .inl h
        · rw [h]; exact k2
    cases step_does hs with
    | calm p x hc =>
      refine keep hr ?_ ?_ (fun _ => rfl) (fun _ => .inr rfl)
      all_goals
        revert hc; generalize s1.phase p = y; intro hc
        cases hc <;> intro h <;> cases h
    | failed p x hc =>
      refine keep hr ?_ ?_ (fun _ => rfl) (fun _ => .inr rfl)
      all_goals
        revert hc; generalize s1.phase p = y; intro hc
        cases hc <;> intro h <;> cases h
    | mkdir p hp => exact keep hr (by intro h; cases h) (by intro h; cases h) (fun _ => rfl) (fun _ => .inr rfl)
    | trunc p i hp hl => exact keep hr (by intro h; cases h) (by intro h; cases h) (fun h => by cases h) (fun h => by cases h)
    | make p hp hl hd => exact keep hr (by intro h; cases h) (by intro h; cases h) (fun h => by cases h) (fun h => by cases h)
    | write p i off k hp hne =>
      exact keep hr (by intro h; cases h) (by intro h; cases h) (fun h => by cases h) (fun h => by cases h)
    | crash p hp => exact keep hr (by intro h; cases h) (by intro h; cases h) (fun _ => rfl) (fun _ => .inr rfl)
    | time n => exact keep hr (by intro h; cases h) (by intro h; cases h) (fun _ => rfl) (fun _ => .inr rfl)
    | date r' hr' =>
      rw [to_sweep] at hr
      split at hr
      · cases hr
      · exact keep hr (by intro h; cases h) (by intro h; cases h) (fun _ => rfl) (fun _ => .inr rfl)
    | doom r' t i ht hl he =>
      rw [to_sweep] at hr
      split at hr
      · next hrr =>
        subst hrr
        have hle := timed_le h1 ht
        obtain ⟨life, e1, e2⟩ := expired_iff.1 he
        exact ⟨l, [], s1, i, rfl, h1, hl, ⟨life, e1, by omega⟩, (fun b hb => by cases hb), Nat.le_refl _, fun _ => ⟨rfl, .inr hl⟩⟩
      · next hrr =>
        exact keep hr (by intro h; cases h) (by intro h; injection h with h; exact hrr h.symm) (fun _ => rfl) (fun _ => .inr rfl)
    | spare r' t ht =>
      rw [to_sweep] at hr
      split at hr
      · cases hr
      · next hrr =>
        exact keep hr (by intro h; cases h) (by intro h; injection h with h; exact hrr h.symm) (fun _ => rfl) (fun _ => .inr rfl)
    | rm r' hr' =>
      change (s1.to r' .idle).sweep r = _ at hr
      rw [to_sweep] at hr
      split at hr
      · cases hr
      · next hrr =>
        exact keep hr (by intro h; injection h with h; exact hrr h.symm) (by intro h; cases h) (fun _ => rfl) (fun _ => .inl rfl)
    | rmFails r' hr' =>
      rw [to_sweep] at hr
      split at hr
      · cases hr
      · exact keep hr (by intro h; cases h) (by intro h; cases h) (fun _ => rfl) (fun _ => .inr rfl)
    | rmdir r' hr' hl => exact keep hr (by intro h; cases h) (by intro h; cases h) (fun _ => rfl) (fun _ => .inr rfl)

/-- **C97 (what is removed).** When a run `r` of the script removes the entry `j`, there was a moment before at which it looked at
the entry, which was then at least as old as the script's reading of its lifetime; and if no render has stored anything from then
on, it is this entry, unchanged, and it is still at least this old. -/
theorem C97_removed (c : Cfg) (now r j : Nat) (l : List Act) (s s' : Sys) (h : Runs c (fresh now) l s)
    (hr : step c s (.rm r) = some s') (hj : s.link = some j) :
    s'.link = none ∧ ∃ l1 l2 s1 i life, l = l1 ++ .stat r :: l2 ∧ Runs c (fresh now) l1 s1 ∧ s1.link = some i ∧
      c.lifeRm = some life ∧ ((s1.node i).2 : Int) + life ≤ s1.now ∧ (∀ a ∈ l2, a ≠ .rm r ∧ a ≠ .stat r) ∧
      ((∀ a ∈ l2, (∀ p, a ≠ .create p) ∧ ∀ p k, a ≠ .write p k) →
        j = i ∧ s.node j = s1.node i ∧ ((s.node j).2 : Int) + life ≤ s.now) := by
  have hd : s.sweep r = .doomed ∧ s'.link = none := by
    simp only [step] at hr
    split at hr
    · next hd => injection hr with hr; subst hr; exact ⟨hd, rfl⟩
    · cases hr
  obtain ⟨l1, l2, s1, i, q1, q2, q3, ⟨life, q4, q4'⟩, q5, hmono, q6⟩ := decided h r hd.1
  refine ⟨hd.2, l1, l2, s1, i, life, q1, q2, q3, q4, q4', q5, fun hq => ?_⟩
  obtain ⟨k1, k2⟩ := q6 (fun a ha => by
    have := hq a ha
    cases a <;> first | rfl | exact absurd rfl (this.1 _) | exact absurd rfl (this.2 _ _))
  have hji : j = i := by
    rcases k2 with k2 | k2
    · rw [hj] at k2; cases k2
    · rw [hj] at k2; injection k2
  subst hji
  refine ⟨rfl, by rw [k1], ?_⟩
  rw [k1]
  omega

/-! ### a young entry stays -/

/-- The invariant of one render while an entry `i` with content `f` is usable. -/
def StayOk (f : Bytes) (i now : Nat) (was : Phase) : Phase → Prop
  | .aged t => t ≤ now
  | .reading j acc => j = i ∧ acc <+: f
  | .done out err => out = f ∧ err = false ∨ was = .done out err
  | .evaluating => False
  | .creating => False
  | .writing _ _ => False
  | _ => True

/-- The invariant of the system. -/
def Stay (f : Bytes) (m i : Nat) (s0 s : Sys) : Prop :=
  s.link = some i ∧ s.node i = (f, m) ∧ (∀ q, StayOk f i s.now (s0.phase q) (s.phase q)) ∧
    ∀ r, s.sweep r ≠ .doomed ∧ ∀ t, s.sweep r = .timed t → t ≤ s.now

theorem stay_step {c : Cfg} {f : Bytes} {m i : Nat} {life : Int} {s0 s s' : Sys} {a : Act} (hv : c.valid f = true)
    (hl : c.lifeRm = some life) (h : Stay f m i s0 s) (ha : ∀ p, a ≠ .openFails p ∧ a ≠ .readFails p)
    (hs : step c s a = some s') (ht : s.now ≤ m + c.life) (ht' : (s.now : Int) < m + life) : Stay f m i s0 s' := by
  obtain ⟨h1, h2, h3, h4⟩ := id h
  have one : ∀ {p : Nat} {x : Phase}, StayOk f i s.now (s0.phase p) x → Stay f m i s0 (s.go p x) := by
    intro p x hx
    refine ⟨h1, h2, fun q => ?_, h4⟩
    rw [go_phase]
    split
    · next hq => subst hq; exact hx
    · exact h3 q
  cases step_does hs with
  | calm p x hc =>
    refine one ?_
    have hp := h3 p
    revert hc hp
    generalize s.phase p = y
    intro hc hp
    cases hc with
    | missing hl' => rw [h1] at hl'; cases hl'
    | found j hl' => trivial
    | clock => exact Nat.le_refl _
    | gone t hl' => rw [h1] at hl'; cases hl'
    | old t j hl' hgt =>
      rw [h1] at hl'; injection hl' with hl'; subst hl'
      rw [h2] at hgt
      have hp : t ≤ s.now := hp
      dsimp only at hgt
      omega
    | good t j hl' _ => trivial
    | opened j hl' =>
      rw [h1] at hl'; injection hl' with hl'; subst hl'
      exact ⟨rfl, List.nil_prefix⟩
    | lost hl' => rw [h1] at hl'; cases hl'
    | more j acc k hne =>
      obtain ⟨hj, w, hw⟩ := hp
      subst hj
      refine ⟨rfl, w.drop (k + 1), ?_⟩
      rw [h2, ← hw, List.drop_left, List.append_assoc, List.take_append_drop]
    | read j acc _ hend =>
      obtain ⟨hj, w, hw⟩ := hp
      subst hj
      rw [h2] at hend
      have hw0 : w = [] := by rw [← hw, List.drop_left] at hend; exact hend
      have hacc : acc = f := by rw [← hw, hw0, List.append_nil]
      unfold readEnd
      rw [hacc, if_pos hv]
      exact .inl ⟨rfl, rfl⟩
    | noDir hl' _ => rw [h1] at hl'; cases hl'
    | written j off _ _ => exact hp.elim
  | failed p x hc =>
    have hp := h3 p
    revert hc hp
    generalize s.phase p = y
    intro hc hp
    cases hc with
    | open_ => exact absurd rfl (ha p).1
    | read _ _ => exact absurd rfl (ha p).2
    | mkdir => exact hp.elim
    | create => exact hp.elim
    | write _ _ => exact hp.elim
  | mkdir p hp => have := h3 p; rw [hp] at this; exact this.elim
  | trunc p j hp _ => have := h3 p; rw [hp] at this; exact this.elim
  | make p hp _ _ => have := h3 p; rw [hp] at this; exact this.elim
  | write p j off k hp _ => have := h3 p; rw [hp] at this; exact this.elim
  | crash p hp => exact one trivial
  | time n =>
    refine ⟨h1, h2, fun q => ?_, fun r => ⟨(h4 r).1, fun t hr => Nat.le_trans ((h4 r).2 t hr) (Nat.le_add_right _ _)⟩⟩
    have := h3 q
    revert this
    change StayOk f i s.now (s0.phase q) (s.phase q) → StayOk f i (s.now + n) (s0.phase q) (s.phase q)
    generalize s.phase q = y
    intro this
    cases y <;> first | trivial | exact this | exact Nat.le_trans this (Nat.le_add_right _ _)
  | date r hr =>
    refine ⟨h1, h2, h3, fun r' => ?_⟩
    rw [to_sweep]
    split
    · exact ⟨(fun h => by cases h), fun t h => by injection h with h; subst h; exact Nat.le_refl _⟩
    · exact h4 r'
  | doom r t j hr hl' he =>
    rw [h1] at hl'; injection hl' with hl'; subst hl'
    obtain ⟨life', e1, e2⟩ := expired_iff.1 he
    rw [hl] at e1; injection e1 with e1; subst e1
    have := (h4 r).2 t hr
    rw [h2] at e2
    dsimp only at e2
    omega
  | spare r t hr =>
    refine ⟨h1, h2, h3, fun r' => ?_⟩
    rw [to_sweep]
    split
    · exact ⟨(fun h => by cases h), fun t h => by cases h⟩
    · exact h4 r'
  | rm r hr => exact absurd hr (h4 r).1
  | rmFails r hr => exact absurd hr (h4 r).1
  | rmdir r hr hl' => rw [h1] at hl'; cases hl'

/-- **C97 (a young entry stays).** When no render is under way, the script has decided nothing yet and the entry has a content `f`,
then in every history in which reading does not fail and the clock does not reach the end of the lifetime, as the renders read it
and as the script reads it, the entry stays as it is and every block that ends gives `f`, without an error. -/
theorem C97_stays (c : Cfg) (s s' : Sys) (l : List Act) (f : Bytes) (m i : Nat) (life : Int) (hf : s.link = some i)
    (hn : s.node i = (f, m)) (hl : c.lifeRm = some life)
    (hstart : ∀ p, s.phase p = .start ∨ s.phase p = .crashed ∨ ∃ x e, s.phase p = .done x e)
    (hsweep : ∀ r, s.sweep r = .idle ∨ ∃ t, s.sweep r = .timed t ∧ t ≤ s.now) (hv : c.valid f = true)
    (hr : Runs c s l s') (hfail : ∀ a ∈ l, ∀ p, a ≠ .openFails p ∧ a ≠ .readFails p) (ht : s'.now ≤ m + c.life)
    (ht' : (s'.now : Int) < m + life) :
    (s'.link = some i ∧ s'.node i = (f, m)) ∧
      ∀ p out err, s.phase p = .start → s'.phase p = .done out err → out = f ∧ err = false := by
  have key : s'.now ≤ m + c.life → (s'.now : Int) < m + life → (∀ a ∈ l, ∀ p, a ≠ .openFails p ∧ a ≠ .readFails p) →
      Stay f m i s s' := by
    clear ht ht' hfail
    induction hr with
    | nil =>
      refine fun _ _ _ => ⟨hf, hn, fun p => ?_, fun r => ?_⟩
      · rcases hstart p with h | h | ⟨x, e, h⟩ <;> rw [h]
        · trivial
        · trivial
        · exact .inr rfl
      · rcases hsweep r with h | ⟨t, h, hle⟩ <;> rw [h]
        · exact ⟨(fun h => by cases h), fun t h => by cases h⟩
        · exact ⟨(fun h => by cases h), fun t' h => by injection h with h; subst h; exact hle⟩
    | snoc _ hs ih =>
      intro ht ht' hfail
      have := now_mono hs
      exact stay_step hv hl (ih (by omega) (by omega) (fun a ha => hfail a (List.mem_append_left _ ha)))
        (hfail _ (by simp)) hs (by omega) (by omega)
  obtain ⟨h1, h2, h3, _⟩ := key ht ht' hfail
  refine ⟨⟨h1, h2⟩, fun p out err hp ho => ?_⟩
  have := h3 p
  rw [ho, hp] at this
  rcases this with h | h
  · exact h
  · cases h

/-! ### with a lock between renders the texts are complete, whatever the script does -/

/-- The discipline that is missing in the code: a render creates the file only when nobody reads or writes one, opens it only
when nobody writes, and writing does not fail.  The script is free. -/
def Disciplined (s : Sys) : Act → Prop
  | .create _ => ∀ q, (s.phase q).isWriting = false ∧ (s.phase q).isReading = false
  | .open_ _ => ∀ q, (s.phase q).isWriting = false
  | .writeFails _ => False
  | .crash p => (s.phase p).isWriting = false
  | _ => True

/-- A history in which every action is disciplined. -/
inductive RunsLocked (c : Cfg) : Sys → List Act → Sys → Prop
  | nil (s : Sys) : RunsLocked c s [] s
  | snoc {s s1 s2 : Sys} {l : List Act} {a : Act} : RunsLocked c s l s1 → Disciplined s1 a → step c s1 a = some s2 →
      RunsLocked c s (l ++ [a]) s2

/-- What the block of render `p` may end with. -/
def EndOk (c : Cfg) (p : Nat) (out : Bytes) (err : Bool) : Prop :=
  if err then out = c.text p ∨ c.bifs p = false ∧ out = [] else ∃ q, out = c.text q

/-- A file that has been written to its end. -/
def Full (c : Cfg) (s : Sys) (j : Nat) : Prop := ∃ q, (s.node j).1 = c.text q

/-- The invariant: one writer, whose part is in its file, and no readers; or no writer and readers that have read a part of a
file.  The other files are complete. -/
def LockOk (c : Cfg) (s : Sys) : Prop :=
  ((∃ p i off, s.phase p = .writing i off ∧ (∀ q, q ≠ p → (s.phase q).isWriting = false) ∧ off ≤ (c.text p).length ∧ i < s.next ∧
      (s.node i).1 = (c.text p).take off ∧ (∀ j, j < s.next → j ≠ i → Full c s j) ∧ ∀ q, (s.phase q).isReading = false) ∨
    (∀ q, (s.phase q).isWriting = false) ∧ (∀ j, j < s.next → Full c s j) ∧
      ∀ q j acc, s.phase q = .reading j acc → j < s.next ∧ acc <+: (s.node j).1) ∧
  (∀ i, s.link = some i → i < s.next) ∧ ∀ q out err, s.phase q = .done out err → EndOk c q out err

/-- A render that does not write goes to a phase in which it neither reads nor writes. -/
theorem lock_go {c : Cfg} {s : Sys} {p : Nat} {x : Phase} (h : LockOk c s) (hp : (s.phase p).isWriting = false)
    (hw : x.isWriting = false) (hr : x.isReading = false) (hd : ∀ out err, x = .done out err → EndOk c p out err) :
    LockOk c (s.go p x) := by
  refine ⟨?_, h.2.1, fun q out err ho => ?_⟩
  · rcases h.1 with ⟨p', i, off, h1, h2, h3, h4, h5, h6, h7⟩ | ⟨h1, h2, h3⟩
    · refine .inl ⟨p', i, off, ?_, fun q hq => ?_, h3, h4, h5, h6, fun q => ?_⟩
      · rw [go_phase, if_neg]
        · exact h1
        · rintro rfl
          rw [h1] at hp; cases hp
      · rw [go_phase]; split
        · exact hw
        · exact h2 q hq
      · rw [go_phase]; split
        · exact hr
        · exact h7 q
    · refine .inr ⟨fun q => ?_, h2, fun q j acc hq => ?_⟩
      · rw [go_phase]; split
        · exact hw
        · exact h1 q
      · rw [go_phase] at hq
        split at hq
        · subst hq; cases hr
        · exact h3 q j acc hq
  · rw [go_phase] at ho
    split at ho
    · next hq => subst hq; exact hd out err ho
    · exact h.2.2 q out err ho

theorem end_unread {c : Cfg} {p : Nat} {out : Bytes} {err : Bool} (h : unread c p = .done out err) : EndOk c p out err := by
  unfold unread at h
  injection h with h1 h2
  subst h2
  unfold EndOk
  rw [if_pos rfl, ← h1]
  cases c.bifs p
  · exact .inr ⟨rfl, rfl⟩
  · exact .inl rfl

theorem end_fail {c : Cfg} {p : Nat} {out : Bytes} {err : Bool} (h : Phase.done (c.text p) true = .done out err) :
    EndOk c p out err := by
  injection h with h1 h2
  subst h1 h2
  exact .inl rfl

theorem lock_step {c : Cfg} {s s' : Sys} {a : Act} (hv : ∀ q, c.valid (c.text q) = true) (h : LockOk c s) (hd : Disciplined s a)
    (hs : step c s a = some s') : LockOk c s' := by
  have hdone := h.2.2
  -- the invariant when one render starts to write a file that is linked from then on
  have start : ∀ {t : Sys} {p i : Nat}, (∀ q, t.phase q = if q = p then .writing i 0 else s.phase q) →
      (∀ q, (s.phase q).isWriting = false ∧ (s.phase q).isReading = false) → i < t.next → (t.node i).1 = [] →
      (∀ j, j < t.next → j ≠ i → Full c t j) → (∀ j, t.link = some j → j < t.next) → LockOk c t := by
    intro t p i e1 e2 e3 e4 e5 e6
    refine ⟨.inl ⟨p, i, 0, by rw [e1, if_pos rfl], fun q hq => by rw [e1, if_neg hq]; exact (e2 q).1, Nat.zero_le _, e3,
      by rw [e4]; rfl, e5, fun q => ?_⟩, e6, fun q out err ho => ?_⟩
    · rw [e1]; split
      · rfl
      · exact (e2 q).2
    · rw [e1] at ho
      split at ho
      · cases ho
      · exact hdone q out err ho
  cases step_does hs with
  | calm p x hc =>
    generalize hy : s.phase p = y at hc
    cases hc with
    | missing hl => exact lock_go h (by rw [hy]; rfl) rfl rfl (fun _ _ e => by cases e)
    | found i hl => exact lock_go h (by rw [hy]; rfl) rfl rfl (fun _ _ e => by cases e)
    | clock => exact lock_go h (by rw [hy]; rfl) rfl rfl (fun _ _ e => by cases e)
    | gone t hl => exact lock_go h (by rw [hy]; rfl) rfl rfl (fun _ _ e => by cases e)
    | old t i hl _ => exact lock_go h (by rw [hy]; rfl) rfl rfl (fun _ _ e => by cases e)
    | good t i hl _ => exact lock_go h (by rw [hy]; rfl) rfl rfl (fun _ _ e => by cases e)
    | lost hl => exact lock_go h (by rw [hy]; rfl) rfl rfl (fun _ _ e => end_unread e)
    | noDir hl hdir => exact lock_go h (by rw [hy]; rfl) rfl rfl (fun _ _ e => end_fail e)
    | opened i hl =>
      refine ⟨.inr ⟨fun q => ?_, ?_, fun q j acc hq => ?_⟩, h.2.1, fun q out err ho => ?_⟩
      · rw [go_phase]; split
        · rfl
        · exact hd q
      · rcases h.1 with ⟨p', i', off, h1, _⟩ | ⟨_, h2, _⟩
        · have := hd p'; rw [h1] at this; cases this
        · exact h2
      · rw [go_phase] at hq
        split at hq
        · injection hq with hq1 hq2; subst hq1 hq2
          exact ⟨h.2.1 i hl, List.nil_prefix⟩
        · rcases h.1 with ⟨p', i', off, h1, _⟩ | ⟨_, _, h3⟩
          · have := hd p'; rw [h1] at this; cases this
          · exact h3 q j acc hq
      · rw [go_phase] at ho
        split at ho
        · cases ho
        · exact hdone q out err ho
    | more i acc k hne =>
      rcases h.1 with ⟨p', i', off, h1, h2, h3, h4, h5, h6, h7⟩ | ⟨h1, h2, h3⟩
      · have := h7 p; rw [hy] at this; cases this
      refine ⟨.inr ⟨fun q => ?_, h2, fun q j acc' hq => ?_⟩, h.2.1, fun q out err ho => ?_⟩
      · rw [go_phase]; split
        · rfl
        · exact h1 q
      · rw [go_phase] at hq
        split at hq
        · injection hq with hq1 hq2; subst hq1 hq2
          obtain ⟨e1, w, hw⟩ := h3 p i acc hy
          refine ⟨e1, w.drop (k + 1), ?_⟩
          change _ = (s.node i).1
          rw [← hw, List.drop_left, List.append_assoc, List.take_append_drop]
        · exact h3 q j acc' hq
      · rw [go_phase] at ho
        split at ho
        · cases ho
        · exact hdone q out err ho
    | read i acc k hend =>
      rcases h.1 with ⟨p', i', off, h1, h2, h3, h4, h5, h6, h7⟩ | ⟨h1, h2, h3⟩
      · have := h7 p; rw [hy] at this; cases this
      obtain ⟨e1, w, hw⟩ := h3 p i acc hy
      have hw0 : w = [] := by rw [← hw, List.drop_left] at hend; exact hend
      obtain ⟨q0, hq0⟩ := h2 i e1
      have hacc : acc = c.text q0 := by rw [← hq0, ← hw, hw0, List.append_nil]
      have hre : readEnd c p acc = .done acc false := by
        unfold readEnd
        rw [if_pos (by rw [hacc]; exact hv q0)]
      rw [hre]
      refine lock_go h (h1 p) rfl rfl (fun out err e => ?_)
      injection e with e2 e3
      subst e2 e3
      exact ⟨q0, hacc⟩
    | written i off k hend =>
      rcases h.1 with ⟨p', i', off', h1, h2, h3, h4, h5, h6, h7⟩ | ⟨h1, h2, h3⟩
      rotate_left
      · have := h1 p; rw [hy] at this; cases this
      have hpp : p = p' := by
        rcases Nat.decEq p p' with hne | he
        · have := h2 p hne; rw [hy] at this; cases this
        · exact he
      subst hpp
      rw [hy] at h1; injection h1 with e1 e2; subst e1 e2
      refine ⟨.inr ⟨fun q => ?_, fun j hj => ?_, fun q j acc hq => ?_⟩, h.2.1, fun q out err ho => ?_⟩
      · rw [go_phase]; split
        · rfl
        · next hq => exact h2 q hq
      · rcases Nat.decEq j i with hne | he
        · exact h6 j hj hne
        · refine ⟨p, ?_⟩
          rw [he]
          exact h5.trans (List.take_of_length_le (List.drop_eq_nil_iff.1 hend))
      · rw [go_phase] at hq
        split at hq
        · cases hq
        · have := h7 q; rw [hq] at this; cases this
      · rw [go_phase] at ho
        split at ho
        · injection ho with e1 e2; subst e1 e2; exact ⟨p, rfl⟩
        · exact hdone q out err ho
  | failed p x hc =>
    generalize hy : s.phase p = y at hc
    cases hc with
    | open_ => exact lock_go h (by rw [hy]; rfl) rfl rfl (fun _ _ e => end_unread e)
    | read i acc => exact lock_go h (by rw [hy]; rfl) rfl rfl (fun _ _ e => end_unread e)
    | mkdir => exact lock_go h (by rw [hy]; rfl) rfl rfl (fun _ _ e => end_fail e)
    | create => exact lock_go h (by rw [hy]; rfl) rfl rfl (fun _ _ e => end_fail e)
    | write i off => exact hd.elim
  | mkdir p hp => exact lock_go (s := s) (x := .creating) h (by rw [hp]; rfl) rfl rfl (fun _ _ e => by cases e)
  | trunc p i hp hl =>
    have hB : ∀ j, j < s.next → Full c s j := by
      rcases h.1 with ⟨p', i', off', h1, _⟩ | ⟨_, h2, _⟩
      · have := (hd p').1; rw [h1] at this; cases this
      · exact h2
    refine start (p := p) (i := i) (fun q => rfl) hd (h.2.1 i hl) ?_ (fun j hj hne => ?_) h.2.1
    · change ((s.put i []).node i).1 = []
      rw [put_node, if_pos rfl]
    · obtain ⟨q, hq⟩ := hB j hj
      refine ⟨q, ?_⟩
      change ((s.put i []).node j).1 = _
      rw [put_node, if_neg hne]; exact hq
  | make p hp hl hdir =>
    have hB : ∀ j, j < s.next → Full c s j := by
      rcases h.1 with ⟨p', i', off', h1, _⟩ | ⟨_, h2, _⟩
      · have := (hd p').1; rw [h1] at this; cases this
      · exact h2
    refine start (p := p) (i := s.next) (fun q => rfl) hd (Nat.lt_succ_self _) ?_ (fun j hj hne => ?_) ?_
    · change ((s.put s.next []).node s.next).1 = []
      rw [put_node, if_pos rfl]
    · have hj : j < s.next + 1 := hj
      obtain ⟨q, hq⟩ := hB j (by omega)
      refine ⟨q, ?_⟩
      change ((s.put s.next []).node j).1 = _
      rw [put_node, if_neg hne]; exact hq
    · intro j hj
      injection hj with hj
      subst hj
      exact Nat.lt_succ_self _
  | write p i off k hp hne =>
    rcases h.1 with ⟨p', i', off', h1, h2, h3, h4, h5, h6, h7⟩ | ⟨h1, h2, h3⟩
    rotate_left
    · have := h1 p; rw [hp] at this; cases this
    have hpp : p = p' := by
      rcases Nat.decEq p p' with hne | he
      · have := h2 p hne; rw [hp] at this; cases this
      · exact he
    subst hpp
    rw [hp] at h1; injection h1 with e1 e2; subst e1 e2
    refine ⟨.inl ⟨p, i, off + (((c.text p).drop off).take (k + 1)).length, ?_, fun q hq => ?_, ?_, h4, ?_, fun j hj hji => ?_,
      fun q => ?_⟩, h.2.1, fun q out err ho => ?_⟩
    · rw [go_phase, if_pos rfl]
    · rw [go_phase, if_neg hq]; exact h2 q hq
    · simp; omega
    · change ((s.put i _).node i).1 = _
      rw [put_node, if_pos rfl]
      change Fs.writeAt _ _ _ = _
      rw [h5, Fs.writeAt_prefix _ _ _ h3]
    · obtain ⟨q, hq⟩ := h6 j hj hji
      refine ⟨q, ?_⟩
      change ((s.put i _).node j).1 = _
      rw [put_node, if_neg hji]; exact hq
    · rw [go_phase]; split
      · rfl
      · exact h7 q
    · rw [go_phase] at ho
      split at ho
      · cases ho
      · exact hdone q out err ho
  | crash p hp => exact lock_go h hd rfl rfl (fun _ _ e => by cases e)
  | time n => exact h
  | date r hr => exact h
  | doom r t i hr hl he => exact h
  | spare r t hr => exact h
  | rm r hr => exact ⟨h.1, (fun i hi => by cases hi), h.2.2⟩
  | rmFails r hr => exact h
  | rmdir r hr hl => exact h

/-- **C97 (complete texts under a lock).** When all texts are UTF-8 (in Rust they are), in every history in which renders that
write exclude all other renders and do not fail while writing, whatever the script does and whenever: a block that ends without an
error gives the complete text of a render, and a block that ends with an error gives its own text, or nothing if its code has no
BIF in it.  The code takes no lock: `C39_refuted`. -/
theorem C97_locked_partial (c : Cfg) (now p : Nat) (l : List Act) (s : Sys) (out : Bytes) (err : Bool)
    (hv : ∀ q, c.valid (c.text q) = true) (h : RunsLocked c (fresh now) l s) (ho : s.phase p = .done out err) :
    (err = false → ∃ q, out = c.text q) ∧ (err = true → out = c.text p ∨ c.bifs p = false ∧ out = []) := by
  have h0 : LockOk c (fresh now) :=
    ⟨.inr ⟨fun _ => rfl, (fun j hj => by cases hj), fun q j acc hq => by cases hq⟩, (fun i hi => by cases hi),
      fun q out err hq => by cases hq⟩
  have hok : LockOk c s := by
    clear ho
    induction h with
    | nil => exact h0
    | snoc _ hd hs ih => exact lock_step hv ih hd hs
  have := hok.2.2 p out err ho
  unfold EndOk at this
  constructor
  · rintro rfl; simpa using this
  · rintro rfl; simpa using this

/-! ### the witnesses -/

/-- Everybody would store the same three bytes; both lifetimes are 100 seconds.  Render 9 has no BIF in its code. -/
def three : Cfg := ⟨fun _ => [1, 2, 3], fun p => p != 9, 100, some 100, fun _ => true⟩

/-- Render `p` stores the entry. -/
def stores (p : Nat) : List Act := [.exists_ p, .mkdir p, .create p, .write p 9, .write p 9]

/-- Render `p` finds the entry and reads it. -/
def reads (p : Nat) : List Act := [.exists_ p, .clock p, .metadata p, .open_ p, .read p 9, .read p 9]

/-- **C97 (refuted: the script does not disturb renders).** From an absent entry, with no failure of any call:
(1) 100 seconds after it was stored a render finds the entry good; the script removes it before the render opens it: the block ends
with an error, and for a code without a BIF the output is empty;
(2) the same even if the script waited one second more than the renders do: it is enough that a second passes between the check
and the opening;
(3) the script removes an entry that was stored at this very second, without an error, and the next render evaluates again;
(4) the script removes the empty directory after a render has made it: the block ends with an error and nothing is stored. -/
theorem C97_refuted :
    (∃ l s, Runs three (fresh 0) (stores 0 ++ .time 100 :: l) s ∧ (∀ n, Act.time n ∉ l) ∧
      endOf s 1 = some ([1, 2, 3], true) ∧ endOf s 9 = some ([], true)) ∧
    (∃ l s, Runs { three with life := 200, lifeRm := some 201 } (fresh 0) l s ∧ endOf s 1 = some ([1, 2, 3], true)) ∧
    (∃ l s, Runs three (fresh 0) (stores 0 ++ .time 101 :: l) s ∧ (∀ n, Act.time n ∉ l) ∧
      endOf s 1 = some ([1, 2, 3], false) ∧ s.link = none) ∧
    (∃ l s, Runs three (fresh 0) l s ∧ endOf s 0 = some ([1, 2, 3], true) ∧ s.link = none ∧
      (∀ r, Act.rm r ∉ l) ∧ ∀ p, Act.createFails p ∉ l ∧ Act.mkdirFails p ∉ l) := by
  refine ⟨⟨[.exists_ 1, .clock 1, .metadata 1, .exists_ 9, .clock 9, .metadata 9, .date 0, .stat 0, .rm 0, .open_ 1, .open_ 9], _,
      play_runs rfl, by simp, by decide, by decide⟩,
    ⟨stores 0 ++ [.time 200, .exists_ 1, .clock 1, .metadata 1, .time 1, .date 0, .stat 0, .rm 0, .open_ 1], _, play_runs rfl,
      by decide⟩,
    ⟨[.exists_ 1, .clock 1, .metadata 1, .date 0, .stat 0, .mkdir 1, .create 1, .write 1 9, .write 1 9, .rm 0], _, play_runs rfl,
      by simp, by decide, by decide⟩,
    ⟨[.exists_ 0, .mkdir 0, .rmdir 0, .create 0], _, play_runs rfl, by decide, by decide, by simp, by simp⟩⟩

/-! ### the premises are met -/

/-- A history that meets the premises of `C97_stays`: after render 0 has stored the entry, 99 seconds later the script runs and
render 1 reads the entry. -/
example : ∃ s l s', Runs three (fresh 0) (stores 0) s ∧ s.link = some 0 ∧ s.node 0 = ([1, 2, 3], 0) ∧
    (∀ p, s.phase p = .start ∨ s.phase p = .crashed ∨ ∃ x e, s.phase p = .done x e) ∧ (∀ r, s.sweep r = .idle) ∧
    Runs three s l s' ∧ (∀ a ∈ l, ∀ p, a ≠ .openFails p ∧ a ≠ .readFails p) ∧ s'.now = 99 ∧
    endOf s' 1 = some ([1, 2, 3], false) := by
  refine ⟨_, .time 99 :: .date 0 :: .stat 0 :: reads 1, _, play_runs rfl, rfl, rfl, fun p => ?_, fun r => rfl, play_runs rfl, ?_, rfl,
    by decide⟩
  · rcases Nat.decEq p 0 with hp | hp
    · left
      simp [go_phase, hp, fresh, Sys.put]
    · subst hp; exact .inr (.inr ⟨_, _, rfl⟩)
  · intro a ha p
    simp [reads] at ha
    rcases ha with rfl | rfl | rfl | rfl | rfl | rfl | rfl | rfl <;> exact ⟨(fun h => by cases h), fun h => by cases h⟩

/-- Disciplined histories with the script exist: render 1 has opened the entry of render 0 when the script removes it, and reads it
to its end. -/
example : ∃ l s, RunsLocked three (fresh 0) l s ∧ Act.rm 0 ∈ l ∧ endOf s 1 = some ([1, 2, 3], false) ∧ s.link = none := by
  apply Exists.intro
  apply Exists.intro
  apply And.intro
  · refine .snoc (a := .read 1 9)
      (.snoc (a := .read 1 9)
      (.snoc (a := .rm 0)
      (.snoc (a := .open_ 1)
      (.snoc (a := .metadata 1)
      (.snoc (a := .clock 1)
      (.snoc (a := .exists_ 1)
      (.snoc (a := .stat 0)
      (.snoc (a := .date 0)
      (.snoc (a := .time 100)
      (.snoc (a := .write 0 9)
      (.snoc (a := .write 0 9)
      (.snoc (a := .create 0)
      (.snoc (a := .mkdir 0)
      (.snoc (a := .exists_ 0)
      (.nil _) trivial rfl) trivial rfl) ?_ rfl) trivial rfl) trivial rfl) trivial rfl) trivial rfl) trivial rfl) trivial rfl) trivial rfl) trivial rfl) ?_ rfl) trivial rfl) trivial rfl) trivial rfl
    · intro q
      simp only [go_phase, fresh]
      constructor <;> repeat' split
      all_goals rfl
    · intro q
      rcases q with _ | _ | q
      · rfl
      · rfl
      · rfl
  · exact ⟨by simp, by decide, rfl⟩

/-- A removal as in `C97_removed`. -/
example : ∃ s s', Runs three (fresh 0) (stores 0 ++ [.time 100, .date 0, .stat 0]) s ∧ step three s (.rm 0) = some s' ∧
    s.link = some 0 ∧ s'.link = none := ⟨_, _, play_runs rfl, rfl, rfl, rfl⟩

/-- The premise of `C97_error` on the texts is met by texts of ASCII characters, with the test for UTF-8 restricted to them. -/
example : ∀ x : Bytes, (∀ (i : Nat) (b : UInt8), x[i]? = some b → b = 0 ∨ ∃ q, ((fun _ => [72, 105] : Nat → Bytes) q)[i]? = some b) →
    (x.all (· < 128)) = true := by
  intro x hx
  rw [List.all_eq_true]
  intro b hb
  obtain ⟨i, hi⟩ := List.getElem?_of_mem hb
  rcases hx i b hi with h | ⟨q, hq⟩
  · subst h; decide
  · have : b ∈ ([72, 105] : Bytes) := List.mem_of_getElem? hq
    simp only [List.mem_cons, List.not_mem_nil, or_false] at this
    rcases this with rfl | rfl <;> decide

end Nts.Rm
