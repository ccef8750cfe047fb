import Verif.Model.CacheFs
/-
C39: cache files under concurrency and crashes.
-/
set_option autoImplicit false
namespace Nts.Fs

/-! ### the witness -/

/-- Do the actions one after the other. -/
def play (c : Cfg) : Sys → List Act → Option Sys
  | s, [] => some s
  | s, a :: l => (step c s a).bind (play c · l)

theorem Runs.append {c : Cfg} {s s1 s2 : Sys} {l m : List Act} (h : Runs c s l s1) (h' : Runs c s1 m s2) :
    Runs c s (l ++ m) s2 := by
  induction h' with
  | nil => simpa using h
  | snoc _ hs ih => rw [← List.append_assoc]; exact .snoc ih hs

theorem play_runs {c : Cfg} : ∀ {l : List Act} {s s' : Sys}, play c s l = some s' → Runs c s l s'
  | [], s, s', h => by injection h with h; subst h; exact .nil _
  | a :: l, s, s', h => by
    unfold play at h
    obtain ⟨s1, h1, h2⟩ := Option.bind_eq_some_iff.1 h
    exact Runs.append (l := [a]) (.snoc (l := []) (.nil _) h1) (play_runs h2)

/-- The output of a render that has ended. -/
def outOf (s : Sys) (p : Nat) : Option Bytes := match s.phase p with | .done x => some x | _ => none

/-- Everybody would store the same three bytes. -/
def sameText : Cfg := ⟨fun _ => [1, 2, 3], fun _ => true, 100, fun _ => true⟩

/-- Render 0 stores four bytes 1, the others two bytes 2. -/
def twoTexts : Cfg := ⟨fun p => if p = 0 then [1, 1, 1, 1] else [2, 2], fun _ => true, 100, fun _ => true⟩

/-- **C39 (refuted).** From an absent entry:
(1) a render between the creation and the first write of another gives the empty text;
(2) a render during the writing gives a part of the text;
(3) after a crash of the writer, all renders of the following 100 seconds give a part of the text;
(4) two overlapping writers of the same text: a render gives NUL bytes;
(5) two overlapping writers of different texts: when both have ended without any failure the entry has a text that none
of them wrote, and a render gives it. -/
theorem C39_refuted :
    ((∃ l s, Runs sameText (fresh 0) l s ∧ outOf s 1 = some []) ∧
    (∃ l s, Runs sameText (fresh 0) l s ∧ outOf s 1 = some [1, 2])) ∧
    (∃ l s, Runs sameText (fresh 0) (.exists_ 0 :: .create 0 :: .write 0 0 :: .crash 0 :: .time 100 :: l) s ∧ outOf s 1 = some [1]) ∧
    (∃ l s, Runs sameText (fresh 0) l s ∧ outOf s 2 = some [0, 0, 3]) ∧
    (∃ l s, Runs twoTexts (fresh 0) l s ∧ outOf s 0 = some [1, 1, 1, 1] ∧ outOf s 1 = some [2, 2] ∧
      outOf s 2 = some [2, 2, 1, 1]) := by
  refine ⟨⟨⟨[.exists_ 0, .create 0, .exists_ 1, .clock 1, .metadata 1, .open_ 1, .read 1 9], _, play_runs rfl, by decide⟩,
    ⟨[.exists_ 0, .create 0, .write 0 1, .exists_ 1, .clock 1, .metadata 1, .open_ 1, .read 1 9, .read 1 9], _, play_runs rfl,
      by decide⟩⟩, ⟨[.exists_ 1, .clock 1, .metadata 1, .open_ 1, .read 1 9, .read 1 9], _, play_runs rfl, by decide⟩,
    ⟨[.exists_ 0, .exists_ 1, .create 0, .write 0 1, .create 1, .write 0 1, .exists_ 2, .clock 2, .metadata 2, .open_ 2,
      .read 2 9, .read 2 9], _, play_runs rfl, by decide⟩,
    ⟨[.exists_ 0, .exists_ 1, .create 0, .create 1, .write 0 9, .write 0 9, .write 1 9, .write 1 9, .exists_ 2, .clock 2,
      .metadata 2, .open_ 2, .read 2 9, .read 2 9], _, play_runs rfl, by decide, by decide, by decide⟩⟩

/-! ### what always holds -/

/-- Every byte comes, at its position, from a text some render would store, or was never written. -/
def FromTexts (c : Cfg) (x : Bytes) : Prop :=
  (∀ (i : Nat) (b : UInt8), x[i]? = some b → b = 0 ∨ ∃ q, (c.text q)[i]? = some b) ∧ ∃ q, x.length ≤ (c.text q).length

theorem fromTexts_text (c : Cfg) (p : Nat) : FromTexts c (c.text p) :=
  ⟨fun _ _ h => .inr ⟨p, h⟩, p, Nat.le_refl _⟩

theorem fromTexts_nil (c : Cfg) : FromTexts c [] :=
  ⟨fun _ _ h => by simp at h, 0, by simp⟩

theorem writeAt_getElem? (f : Bytes) (off : Nat) (ch : Bytes) (i : Nat) :
    (writeAt f off ch)[i]? = if i < off then (if i < f.length then f[i]? else some 0)
      else if i < off + ch.length then ch[i - off]? else f[i]? := by
  have hl : (f.take off ++ List.replicate (off - f.length) (0 : UInt8)).length = off := by simp; omega
  unfold writeAt
  by_cases h1 : i < off
  · rw [if_pos h1, List.append_assoc, List.getElem?_append_left (by rw [hl]; exact h1)]
    by_cases h2 : i < f.length
    · rw [if_pos h2, List.getElem?_append_left (by simp; omega), List.getElem?_take, if_pos h1]
    · rw [if_neg h2, List.getElem?_append_right (by simp; omega), List.getElem?_replicate, if_pos (by simp; omega)]
  · rw [if_neg h1, List.append_assoc, List.getElem?_append_right (by rw [hl]; omega), hl]
    by_cases h2 : i < off + ch.length
    · rw [if_pos h2, List.getElem?_append_left (by omega)]
    · rw [if_neg h2, List.getElem?_append_right (by omega), List.getElem?_drop]
      congr 1
      omega

theorem writeAt_length (f : Bytes) (off : Nat) (ch : Bytes) : (writeAt f off ch).length = max f.length (off + ch.length) := by
  simp [writeAt]
  omega

theorem fromTexts_writeAt {c : Cfg} {f : Bytes} {p off k : Nat} (h : FromTexts c f) (ho : off ≤ (c.text p).length) :
    FromTexts c (writeAt f off (((c.text p).drop off).take k)) := by
  refine ⟨fun i b hb => ?_, ?_⟩
  · rw [writeAt_getElem?] at hb
    split at hb
    · split at hb
      · exact h.1 i b hb
      · injection hb with hb; exact .inl hb.symm
    · split at hb
      · refine .inr ⟨p, ?_⟩
        rw [List.getElem?_take] at hb
        split at hb
        · rw [List.getElem?_drop] at hb
          rw [← hb]; congr 1; omega
        · simp at hb
      · exact h.1 i b hb
  · obtain ⟨q, hq⟩ := h.2
    rw [writeAt_length]
    by_cases hm : (c.text p).length ≤ (c.text q).length
    · exact ⟨q, by simp; omega⟩
    · exact ⟨p, by simp; omega⟩

theorem fromTexts_read {c : Cfg} {f acc : Bytes} {k : Nat} (h : FromTexts c f) (ha : FromTexts c acc)
    (hne : f.drop acc.length ≠ []) : FromTexts c (acc ++ (f.drop acc.length).take k) := by
  refine ⟨fun i b hb => ?_, ?_⟩
  · by_cases hi : i < acc.length
    · rw [List.getElem?_append_left hi] at hb; exact ha.1 i b hb
    · rw [List.getElem?_append_right (by omega), List.getElem?_take] at hb
      split at hb
      · rw [List.getElem?_drop] at hb
        exact h.1 i b (by rw [← hb]; congr 1; omega)
      · simp at hb
  · obtain ⟨q, hq⟩ := h.2
    refine ⟨q, ?_⟩
    have : acc.length < f.length := by
      rcases Nat.lt_or_ge acc.length f.length with hlt | hge
      · exact hlt
      · exact absurd (List.drop_eq_nil_of_le hge) hne
    simp
    omega

/-- The invariant of one render. -/
def PhaseOk (c : Cfg) (p : Nat) : Phase → Prop
  | .reading acc => FromTexts c acc
  | .writing off => off ≤ (c.text p).length
  | .done out => FromTexts c out
  | _ => True

/-- The invariant of the system. -/
def SysOk (c : Cfg) (s : Sys) : Prop :=
  (∀ f m, s.file = some (f, m) → FromTexts c f) ∧ ∀ p, PhaseOk c p (s.phase p)

theorem go_phase (s : Sys) (p q : Nat) (x : Phase) : (s.go p x).phase q = if q = p then x else s.phase q := rfl

theorem go_file (s : Sys) (p : Nat) (x : Phase) : (s.go p x).file = s.file := rfl

theorem ok_go {c : Cfg} {s : Sys} {p : Nat} {x : Phase} (h : SysOk c s) (hx : PhaseOk c p x) : SysOk c (s.go p x) := by
  refine ⟨h.1, fun q => ?_⟩
  rw [go_phase]
  split
  · next hq => subst hq; exact hx
  · exact h.2 q

theorem ok_step {c : Cfg} {s s' : Sys} {a : Act} (h : SysOk c s) (hs : step c s a = some s') : SysOk c s' := by
  cases a with
  | exists_ p =>
    simp only [step] at hs
    split at hs
    · injection hs with hs; subst hs
      refine ok_go h ?_
      split <;> trivial
    · cases hs
  | clock p =>
    simp only [step] at hs
    split at hs
    · injection hs with hs; subst hs; exact ok_go h trivial
    · cases hs
  | metadata p =>
    simp only [step] at hs
    split at hs
    · injection hs with hs; subst hs
      refine ok_go h ?_
      split <;> trivial
    · cases hs
  | open_ p =>
    simp only [step] at hs
    split at hs
    · injection hs with hs; subst hs; exact ok_go h (fromTexts_nil c)
    · cases hs
  | read p k =>
    simp only [step] at hs
    split at hs
    · next acc f m hp hf =>
      have ha := h.2 p
      rw [hp] at ha
      split at hs
      · injection hs with hs; subst hs
        refine ok_go h ?_
        unfold readEnd PhaseOk
        dsimp only
        split
        · exact ha
        · split
          · exact fromTexts_text c p
          · exact fromTexts_nil c
      · next hne =>
        injection hs with hs; subst hs
        exact ok_go h (fromTexts_read (h.1 f m hf) ha hne)
    · cases hs
  | create p =>
    simp only [step] at hs
    split at hs
    · injection hs with hs; subst hs
      refine ⟨fun f m hf => ?_, (ok_go (s := s) (p := p) (x := .writing 0) h (Nat.zero_le _)).2⟩
      simp only [Option.some.injEq, Prod.mk.injEq] at hf
      rw [← hf.1]; exact fromTexts_nil c
    · cases hs
  | createFails p =>
    simp only [step] at hs
    split at hs
    · injection hs with hs; subst hs; exact ok_go h (fromTexts_text c p)
    · cases hs
  | write p k =>
    simp only [step] at hs
    split at hs
    · next off f m hp hf =>
      have ho := h.2 p
      rw [hp] at ho
      have ho : off ≤ (c.text p).length := ho
      split at hs
      · injection hs with hs; subst hs; exact ok_go h (fromTexts_text c p)
      · injection hs with hs; subst hs
        refine ⟨fun f' m' hf' => ?_, (ok_go (s := s) (p := p) h ?_).2⟩
        · simp only [Option.some.injEq, Prod.mk.injEq] at hf'
          rw [← hf'.1]
          exact fromTexts_writeAt (h.1 f m hf) ho
        · change off + _ ≤ _
          simp
          omega
    · cases hs
  | writeFails p =>
    simp only [step] at hs
    split at hs
    · injection hs with hs; subst hs; exact ok_go h (fromTexts_text c p)
    · cases hs
  | crash p =>
    simp only [step] at hs
    split at hs
    · cases hs
    · injection hs with hs; subst hs; exact ok_go h trivial
  | time n =>
    simp only [step, Option.some.injEq] at hs
    subst hs
    exact h

theorem ok_runs {c : Cfg} {s s' : Sys} {l : List Act} (h : SysOk c s) (hr : Runs c s l s') : SysOk c s' := by
  induction hr with
  | nil => exact h
  | snoc _ hs ih => exact ok_step ih hs

/-- **C39 (partial: no guarantee but origin).** Under any interleaving, with failures and crashes anywhere, what a render
gives has at every position a byte of some render's text at this position or a byte 0, and is not longer than all texts.
Missing: it need not be a complete text, see `C39_refuted`. -/
theorem C39_origin_partial (c : Cfg) (now p : Nat) (l : List Act) (s : Sys) (out : Bytes)
    (h : Runs c (fresh now) l s) (ho : s.phase p = .done out) :
    (∀ (i : Nat) (b : UInt8), out[i]? = some b → b = 0 ∨ ∃ q, (c.text q)[i]? = some b) ∧ ∃ q, out.length ≤ (c.text q).length := by
  have hok : SysOk c (fresh now) := ⟨(fun f m hf => by cases hf), fun _ => trivial⟩
  have := (ok_runs hok h).2 p
  rw [ho] at this
  exact this

/-! ### a crash poisons the entry -/

/-- The invariant of one render while an entry `f` is usable. -/
def StayOk (f : Bytes) (now : Nat) (was : Phase) : Phase → Prop
  | .aged t => t ≤ now
  | .reading acc => acc <+: f
  | .done out => out = f ∨ was = .done out
  | .evaluating => False
  | .writing _ => False
  | _ => True

theorem stay_go {f : Bytes} {m : Nat} {s0 s : Sys} {p : Nat} {x : Phase}
    (h : s.file = some (f, m) ∧ ∀ q, StayOk f s.now (s0.phase q) (s.phase q)) (hx : StayOk f s.now (s0.phase p) x) :
    (s.go p x).file = some (f, m) ∧ ∀ q, StayOk f (s.go p x).now (s0.phase q) ((s.go p x).phase q) := by
  refine ⟨h.1, fun q => ?_⟩
  rw [go_phase]
  split
  · next hq => subst hq; exact hx
  · exact h.2 q

theorem now_mono {c : Cfg} {s s' : Sys} {a : Act} (hs : step c s a = some s') : s.now ≤ s'.now := by
  cases a <;> simp only [step] at hs <;> repeat' split at hs
  all_goals first
    | (injection hs with hs; subst hs; first | exact Nat.le_refl _ | exact Nat.le_add_right _ _)
    | cases hs

theorem stay_step {c : Cfg} {f : Bytes} {m : Nat} {s0 s s' : Sys} {a : Act} (hv : c.valid f = true)
    (h : s.file = some (f, m) ∧ ∀ q, StayOk f s.now (s0.phase q) (s.phase q)) (hs : step c s a = some s')
    (ht : s.now ≤ m + c.life) : s'.file = some (f, m) ∧ ∀ q, StayOk f s'.now (s0.phase q) (s'.phase q) := by
  obtain ⟨h1, h2⟩ := id h
  cases a with
  | exists_ p =>
    simp only [step] at hs
    split at hs
    · injection hs with hs; subst hs
      refine stay_go h ?_
      rw [h1]; trivial
    · cases hs
  | clock p =>
    simp only [step] at hs
    split at hs
    · injection hs with hs; subst hs; exact stay_go h (Nat.le_refl _)
    · cases hs
  | metadata p =>
    simp only [step] at hs
    rw [h1] at hs
    have hp := h2 p
    split at hs
    · next t f' m' ha he =>
      injection he with he; injection he with he1 he2
      injection hs with hs; subst hs
      rw [ha] at hp
      have hp : t ≤ s.now := hp
      refine stay_go h ?_
      rw [if_neg (by omega)]; trivial
    · cases hs
  | open_ p =>
    simp only [step] at hs
    split at hs
    · injection hs with hs; subst hs; exact stay_go h List.nil_prefix
    · cases hs
  | read p k =>
    simp only [step] at hs
    rw [h1] at hs
    have hp := h2 p
    split at hs
    · next acc f' m' ha he =>
      injection he with he; injection he with he1 he2
      subst he1
      rw [ha] at hp
      obtain ⟨r, hr⟩ : acc <+: f := hp
      have hd : f.drop acc.length = r := by rw [← hr, List.drop_left]
      rw [hd] at hs
      split at hs
      · next hr0 =>
        have hf : acc = f := by rw [← hr, hr0, List.append_nil]
        injection hs with hs; subst hs
        refine stay_go h ?_
        rw [hf]
        simp [readEnd, hv, StayOk]
      · injection hs with hs; subst hs
        refine stay_go h ?_
        refine ⟨r.drop (k + 1), ?_⟩
        rw [List.append_assoc, List.take_append_drop, hr]
    · cases hs
  | create p =>
    have hp := h2 p
    simp only [step] at hs
    split at hs
    · next ha => rw [ha] at hp; exact hp.elim
    · cases hs
  | createFails p =>
    have hp := h2 p
    simp only [step] at hs
    split at hs
    · next ha => rw [ha] at hp; exact hp.elim
    · cases hs
  | write p k =>
    have hp := h2 p
    simp only [step] at hs
    split at hs
    · next ha _ => rw [ha] at hp; exact hp.elim
    · cases hs
  | writeFails p =>
    have hp := h2 p
    simp only [step] at hs
    split at hs
    · next ha => rw [ha] at hp; exact hp.elim
    · cases hs
  | crash p =>
    simp only [step] at hs
    split at hs
    · cases hs
    · injection hs with hs; subst hs; exact stay_go h trivial
  | time n =>
    simp only [step, Option.some.injEq] at hs
    subst hs
    refine ⟨h1, fun q => ?_⟩
    have := h2 q
    revert this
    cases hq : s.phase q <;> intro this
    all_goals first | trivial | exact this | exact Nat.le_trans this (Nat.le_add_right _ _)

/-- **C39 (a broken entry stays).** If no render is under way and the entry has a content `f`, whatever it is, then in
every history in which the clock does not pass its lifetime, the entry keeps it and every render that ends gives it. -/
theorem C39_stays (c : Cfg) (s s' : Sys) (l : List Act) (f : Bytes) (m : Nat) (hf : s.file = some (f, m))
    (hstart : ∀ p, s.phase p = .start ∨ s.phase p = .crashed ∨ ∃ x, s.phase p = .done x) (hv : c.valid f = true)
    (hr : Runs c s l s') (ht : s'.now ≤ m + c.life) :
    s'.file = some (f, m) ∧ ∀ p out, s.phase p = .start → s'.phase p = .done out → out = f := by
  have key : s'.now ≤ m + c.life → s'.file = some (f, m) ∧ ∀ q, StayOk f s'.now (s.phase q) (s'.phase q) := by
    clear ht
    induction hr with
    | nil =>
      refine fun _ => ⟨hf, fun p => ?_⟩
      rcases hstart p with h | h | ⟨x, h⟩ <;> rw [h]
      · trivial
      · trivial
      · exact .inr rfl
    | snoc _ hs ih =>
      intro ht
      have := Nat.le_trans (now_mono hs) ht
      exact stay_step hv (ih this) hs this
  obtain ⟨h1, h2⟩ := key ht
  refine ⟨h1, fun p out hp ho => ?_⟩
  have := h2 p
  rw [ho, hp] at this
  rcases this with h | h
  · exact h
  · cases h

/-! ### with a lock the files are complete -/

/-- The discipline that is missing in the code: a render creates the file only when nobody reads or writes it, opens it
only when nobody writes it, and writing does not fail. -/
def Disciplined (s : Sys) : Act → Prop
  | .create _ => ∀ q, (s.phase q).isWriting = false ∧ (s.phase q).isReading = false
  | .open_ _ => ∀ q, (s.phase q).isWriting = false
  | .writeFails _ => False
  | .crash p => (s.phase p).isWriting = false
  | _ => True

/-- A history in which every action is disciplined. -/
inductive RunsLocked (c : Cfg) : Sys → List Act → Sys → Prop
  | nil (s : Sys) : RunsLocked c s [] s
  | snoc {s s1 s2 : Sys} {l : List Act} {a : Act} : RunsLocked c s l s1 → Disciplined s1 a → step c s1 a = some s2 →
      RunsLocked c s (l ++ [a]) s2

/-- The invariant: one writer, whose part is in the file, and no readers; or no writer, a complete file, and readers that
have read a part of it. -/
def LockOk (c : Cfg) (s : Sys) : Prop :=
  ((∃ p off m, s.phase p = .writing off ∧ (∀ q, q ≠ p → (s.phase q).isWriting = false) ∧ off ≤ (c.text p).length ∧
      s.file = some ((c.text p).take off, m)) ∧ (∀ q, (s.phase q).isReading = false) ∨
    (∀ q, (s.phase q).isWriting = false) ∧ (∀ f m, s.file = some (f, m) → ∃ p, f = c.text p) ∧
      ∀ q acc, s.phase q = .reading acc → ∀ f m, s.file = some (f, m) → acc <+: f) ∧
  ∀ q out, s.phase q = .done out → ∃ p, out = c.text p

theorem isWriting_iff {x : Phase} : x.isWriting = true ↔ ∃ off, x = .writing off := by
  cases x <;> simp [Phase.isWriting]

theorem isReading_iff {x : Phase} : x.isReading = true ↔ ∃ acc, x = .reading acc := by
  cases x <;> simp [Phase.isReading]

/-- A render that neither reads nor writes goes to such a phase. -/
theorem lock_go {c : Cfg} {s : Sys} {p : Nat} {x : Phase} (h : LockOk c s) (hp : (s.phase p).isWriting = false)
    (hw : x.isWriting = false) (hr : x.isReading = false) (hd : ∀ out, x = .done out → ∃ q, out = c.text q) :
    LockOk c (s.go p x) := by
  refine ⟨?_, fun q out ho => ?_⟩
  · rcases h.1 with ⟨⟨p', off, m, h1, h2, h3, h4⟩, h5⟩ | ⟨h1, h2, h3⟩
    · refine .inl ⟨⟨p', off, m, ?_, fun q hq => ?_, h3, h4⟩, fun q => ?_⟩
      · rw [go_phase, if_neg]
        · exact h1
        · rintro rfl
          rw [h1] at hp; cases hp
      · rw [go_phase]; split
        · exact hw
        · exact h2 q hq
      · rw [go_phase]; split
        · exact hr
        · exact h5 q
    · refine .inr ⟨fun q => ?_, h2, fun q acc hq => ?_⟩
      · rw [go_phase]; split
        · exact hw
        · exact h1 q
      · rw [go_phase] at hq
        split at hq
        · subst hq; cases hr
        · exact h3 q acc hq
  · rw [go_phase] at ho
    split at ho
    · exact hd out ho
    · exact h.2 q out ho

theorem writeAt_prefix (t : Bytes) (off k : Nat) (h : off ≤ t.length) :
    writeAt (t.take off) off ((t.drop off).take k) = t.take (off + ((t.drop off).take k).length) := by
  apply List.ext_getElem?
  intro i
  rw [writeAt_getElem?]
  simp only [List.length_take, List.length_drop, List.getElem?_take, List.getElem?_drop]
  by_cases h1 : i < off
  · rw [if_pos h1, if_pos (by omega), if_pos h1, if_pos (by omega)]
  · rw [if_neg h1]
    by_cases h2 : i < off + min k (t.length - off)
    · rw [if_pos h2, if_pos h2, if_pos (by omega)]
      congr 1; omega
    · rw [if_neg h2, if_neg h2, if_neg h1]

theorem lock_step {c : Cfg} {s s' : Sys} {a : Act} (hv : ∀ q, c.valid (c.text q) = true) (h : LockOk c s) (hd : Disciplined s a) (hs : step c s a = some s') :
    LockOk c s' := by
  cases a with
  | exists_ p =>
    simp only [step] at hs
    split at hs
    · next hp =>
      injection hs with hs; subst hs
      refine lock_go h (by rw [hp]; rfl) ?_ ?_ ?_ <;> split <;> first | rfl | (intro _ h; cases h)
    · cases hs
  | clock p =>
    simp only [step] at hs
    split at hs
    · next hp =>
      injection hs with hs; subst hs
      exact lock_go h (by rw [hp]; rfl) rfl rfl (fun _ h => by cases h)
    · cases hs
  | metadata p =>
    simp only [step] at hs
    split at hs
    · next hp _ =>
      injection hs with hs; subst hs
      refine lock_go h (by rw [hp]; rfl) ?_ ?_ ?_ <;> split <;> first | rfl | (intro _ h; cases h)
    · cases hs
  | open_ p =>
    simp only [step] at hs
    split at hs
    · next hp =>
      injection hs with hs; subst hs
      rcases h.1 with ⟨⟨p', off, m, h1, _⟩, _⟩ | ⟨h1, h2, h3⟩
      · have := hd p'; rw [h1] at this; cases this
      · refine ⟨.inr ⟨fun q => ?_, h2, fun q acc hq => ?_⟩, fun q out ho => ?_⟩
        · rw [go_phase]; split
          · rfl
          · exact h1 q
        · rw [go_phase] at hq
          split at hq
          · injection hq with hq; subst hq
            exact fun _ _ _ => List.nil_prefix
          · exact h3 q acc hq
        · rw [go_phase] at ho
          split at ho
          · cases ho
          · exact h.2 q out ho
    · cases hs
  | read p k =>
    simp only [step] at hs
    split at hs
    · next acc f m hp hf =>
      rcases h.1 with ⟨_, h5⟩ | ⟨h1, h2, h3⟩
      · have := h5 p; rw [hp] at this; cases this
      · obtain ⟨r, hr⟩ := h3 p acc hp f m hf
        have hdr : f.drop acc.length = r := by rw [← hr, List.drop_left]
        rw [hdr] at hs
        split at hs
        · next hr0 =>
          have hfe : acc = f := by rw [← hr, hr0, List.append_nil]
          injection hs with hs; subst hs
          refine lock_go h (by rw [hp]; rfl) rfl rfl ?_
          intro out ho
          unfold readEnd at ho
          injection ho with ho
          subst ho
          obtain ⟨q, hq⟩ := h2 f m hf
          rw [hfe, hq, if_pos (hv q)]
          exact ⟨q, rfl⟩
        · injection hs with hs; subst hs
          refine ⟨.inr ⟨fun q => ?_, h2, fun q acc' hq => ?_⟩, fun q out ho => ?_⟩
          · rw [go_phase]; split
            · rfl
            · exact h1 q
          · rw [go_phase] at hq
            split at hq
            · injection hq with hq; subst hq
              intro f2 m2 hf2
              rw [go_file, hf] at hf2
              injection hf2 with hf2; injection hf2 with e1 e2
              refine ⟨r.drop (k + 1), ?_⟩
              rw [← e1]
              rw [List.append_assoc, List.take_append_drop, hr]
            · exact h3 q acc' hq
          · rw [go_phase] at ho
            split at ho
            · cases ho
            · exact h.2 q out ho
    · cases hs
  | create p =>
    simp only [step] at hs
    split at hs
    · next hp =>
      injection hs with hs; subst hs
      refine ⟨.inl ⟨⟨p, 0, s.now, ?_, fun q hq => ?_, Nat.zero_le _, by simp⟩, fun q => ?_⟩, fun q out ho => ?_⟩
      · change (s.go p (.writing 0)).phase p = _
        rw [go_phase, if_pos rfl]
      · change ((s.go p (.writing 0)).phase q).isWriting = _
        rw [go_phase, if_neg hq]; exact (hd q).1
      · change ((s.go p (.writing 0)).phase q).isReading = _
        rw [go_phase]; split
        · rfl
        · exact (hd q).2
      · change (s.go p (.writing 0)).phase q = _ at ho
        rw [go_phase] at ho
        split at ho
        · cases ho
        · exact h.2 q out ho
    · cases hs
  | createFails p =>
    simp only [step] at hs
    split at hs
    · next hp =>
      injection hs with hs; subst hs
      exact lock_go h (by rw [hp]; rfl) rfl rfl (fun _ h => by injection h with h; exact ⟨p, h.symm⟩)
    · cases hs
  | write p k =>
    simp only [step] at hs
    split at hs
    · next off f m hp hf =>
      rcases h.1 with ⟨⟨p', off', m', h1, h2, h3, h4⟩, h5⟩ | ⟨h1, _, _⟩
      rotate_left
      · have := h1 p; rw [hp] at this; cases this
      have hpp : p' = p := by
        rcases Nat.decEq p p' with hne | he
        · have := h2 p hne; rw [hp] at this; cases this
        · exact he.symm
      subst hpp
      rw [hp] at h1; injection h1 with h1; subst h1
      rw [hf] at h4; injection h4 with h4; injection h4 with e1 e2
      split at hs
      · next hend =>
        injection hs with hs; subst hs
        have hlen : (c.text p').length ≤ off := List.drop_eq_nil_iff.1 hend
        refine ⟨.inr ⟨fun q => ?_, fun f2 m2 hf2 => ⟨p', ?_⟩, fun q acc hq => ?_⟩, fun q out ho => ?_⟩
        · rw [go_phase]; split
          · rfl
          · next hq => exact h2 q hq
        · rw [go_file, hf] at hf2
          injection hf2 with hf2; injection hf2 with e3 e4
          rw [← e3, e1, List.take_of_length_le hlen]
        · rw [go_phase] at hq
          split at hq
          · cases hq
          · have := h5 q; rw [hq] at this; cases this
        · rw [go_phase] at ho
          split at ho
          · injection ho with ho; exact ⟨p', ho.symm⟩
          · exact h.2 q out ho
      · injection hs with hs; subst hs
        refine ⟨.inl ⟨⟨p', off + (((c.text p').drop off).take (k + 1)).length, s.now, ?_, fun q hq => ?_, ?_, ?_⟩, fun q => ?_⟩,
          fun q out ho => ?_⟩
        · change (s.go p' _).phase p' = _
          rw [go_phase, if_pos rfl]
        · change ((s.go p' _).phase q).isWriting = _
          rw [go_phase, if_neg hq]; exact h2 q hq
        · simp; omega
        · rw [e1, writeAt_prefix _ _ _ h3]
        · change ((s.go p' _).phase q).isReading = _
          rw [go_phase]; split
          · rfl
          · exact h5 q
        · change (s.go p' _).phase q = _ at ho
          rw [go_phase] at ho
          split at ho
          · cases ho
          · exact h.2 q out ho
    · cases hs
  | writeFails p => exact hd.elim
  | crash p =>
    simp only [step] at hs
    split at hs
    · cases hs
    · injection hs with hs; subst hs
      exact lock_go h hd rfl rfl (fun _ h => by cases h)
  | time n =>
    simp only [step, Option.some.injEq] at hs
    subst hs
    exact h

/-- **C39 (partial: under a lock).** When all texts are UTF-8 (in Rust they are), in every history in which renders that write exclude
all others and do not fail while writing, every output is the complete text of a render.  Missing: the code takes no lock, see `C39_refuted`. -/
theorem C39_locked_partial (c : Cfg) (now p : Nat) (l : List Act) (s : Sys) (out : Bytes)
    (hv : ∀ q, c.valid (c.text q) = true) (h : RunsLocked c (fresh now) l s) (ho : s.phase p = .done out) : ∃ q, out = c.text q := by
  have h0 : LockOk c (fresh now) :=
    ⟨.inr ⟨fun _ => rfl, (fun f m hf => by cases hf), fun q acc hq => by cases hq⟩, fun q out hq => by cases hq⟩
  have hok : LockOk c s := by
    clear ho
    induction h with
    | nil => exact h0
    | snoc _ hd hs ih => exact lock_step hv ih hd hs
  exact hok.2 p out ho

/-- The premises of `C39_stays` are met after a crash between creation and the first write: all later renders of the next
100 seconds give the empty text. -/
theorem C39_poisoned : ∃ s, Runs sameText (fresh 0) [.exists_ 0, .create 0, .crash 0] s ∧ s.file = some ([], 0) ∧
    (∀ p, s.phase p = .start ∨ s.phase p = .crashed ∨ ∃ x, s.phase p = .done x) ∧
    (∀ l s', Runs sameText s l s' → s'.now ≤ 100 → ∀ p out, p ≠ 0 → s'.phase p = .done out → out = []) := by
  refine ⟨_, play_runs rfl, rfl, ?_⟩
  have hst : ∀ p, p ≠ 0 → ((((fresh 0).go 0 .evaluating).go 0 (.writing 0)).go 0 .crashed).phase p = .start := by
    intro p hp
    rw [go_phase, if_neg hp, go_phase, if_neg hp, go_phase, if_neg hp]
    rfl
  have hall : ∀ p, ((((fresh 0).go 0 .evaluating).go 0 (.writing 0)).go 0 .crashed).phase p = .start ∨
      ((((fresh 0).go 0 .evaluating).go 0 (.writing 0)).go 0 .crashed).phase p = .crashed ∨
      ∃ x, ((((fresh 0).go 0 .evaluating).go 0 (.writing 0)).go 0 .crashed).phase p = .done x := by
    intro p
    rcases Nat.decEq p 0 with hp | hp
    · exact .inl (hst p hp)
    · subst hp; exact .inr (.inl rfl)
  refine ⟨hall, fun l s' hr ht p out hp ho => ?_⟩
  refine (C39_stays sameText _ s' l [] 0 ?_ ?_ rfl hr (by simpa [sameText] using ht)).2 p out ?_ ho
  · rfl
  · exact hall
  · exact hst p hp

/-- Disciplined histories exist: render 0 stores, render 1 reads. -/
example : ∃ l s, RunsLocked sameText (fresh 0) l s ∧ outOf s 1 = some [1, 2, 3] := by
  apply Exists.intro
  apply Exists.intro
  apply And.intro
  · refine .snoc (a := .read 1 9) (.snoc (a := .read 1 9) (.snoc (a := .open_ 1) (.snoc (a := .metadata 1)
      (.snoc (a := .clock 1) (.snoc (a := .exists_ 1) (.snoc (a := .write 0 1) (.snoc (a := .write 0 1)
      (.snoc (a := .write 0 1) (.snoc (a := .create 0) (.snoc (a := .exists_ 0) (.nil _) trivial rfl) ?_ rfl)
      trivial rfl) trivial rfl) trivial rfl) trivial rfl) trivial rfl) trivial rfl) ?_ rfl) trivial rfl) trivial rfl
    · intro q
      simp only [go_phase, fresh]
      constructor <;> split <;> rfl
    · intro q
      rcases q with _ | _ | q
      · rfl
      · rfl
      · simp only [go_phase, fresh]; rfl
  · decide

end Nts.Fs
