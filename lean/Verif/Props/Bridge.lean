import Verif.Model.Bridge
import Verif.Props.CacheFs
/-
C109: the bridge script of PHP objects, under all schedules, failures and crashes.
-/
set_option autoImplicit false
namespace Nts
open Nts.Bridge
open Nts.Fs (writeAt writeAt_getElem? writeAt_length)

/-- The step, by what happened. -/
inductive Bridge.Does (script : List UInt8) (s : Sys) : Act → Sys → Prop
  | found (p : Nat) (f : List UInt8) : s.phase p = .start → s.file = some f → Does script s (.exists_ p) (s.go p .ready)
  | absent (p : Nat) : s.phase p = .start → s.file = none → Does script s (.exists_ p) (s.go p .missing)
  | create (p : Nat) : s.phase p = .missing → Does script s (.create p) { s.go p (.writing 0) with file := some [] }
  | write (p k off : Nat) (f : List UInt8) : s.phase p = .writing off → s.file = some f → off < script.length →
      Does script s (.write p k) { s.go p (.writing (off + ((script.drop off).take (k + 1)).length)) with
        file := some (writeAt f off ((script.drop off).take (k + 1))) }
  | written (p k off : Nat) (f : List UInt8) : s.phase p = .writing off → s.file = some f → script.length ≤ off →
      Does script s (.write p k) (s.go p .ready)
  | serve (p : Nat) (f : List UInt8) : s.phase p = .ready → s.file = some f → Does script s (.serve p) (s.go p (.served f))
  | stopWriting (p off : Nat) : s.phase p = .writing off → Does script s (.stop p) (s.go p (.ended (some off)))
  | stop (p : Nat) : (∀ off, s.phase p ≠ .writing off) → (∀ f, s.phase p ≠ .served f) → (∀ x, s.phase p ≠ .ended x) →
      Does script s (.stop p) (s.go p (.ended none))

theorem bridge_does {script : List UInt8} {s s' : Sys} {a : Act} (h : step script s a = some s') : Bridge.Does script s a s' := by
  cases a with
  | exists_ p =>
    simp only [step] at h
    split at h
    · next hp =>
      simp only [Option.some.injEq] at h
      subst h
      cases hf : s.file with
      | none => exact .absent p hp hf
      | some f => exact .found p f hp hf
    · simp at h
  | create p =>
    simp only [step] at h
    split at h
    · next hp =>
      simp only [Option.some.injEq] at h
      subst h
      exact .create p hp
    · simp at h
  | write p k =>
    simp only [step] at h
    split at h
    · next off f hp hf =>
      split at h
      · next hd =>
        simp only [Option.some.injEq] at h
        subst h
        exact .written p k off f hp hf (List.drop_eq_nil_iff.1 hd)
      · next hd =>
        simp only [Option.some.injEq] at h
        subst h
        exact .write p k off f hp hf (by
          apply Classical.byContradiction
          intro hc
          exact hd (List.drop_eq_nil_iff.2 (by omega)))
    · simp at h
  | serve p =>
    simp only [step] at h
    split at h
    · next f hp hf =>
      simp only [Option.some.injEq] at h
      subst h
      exact .serve p f hp hf
    · simp at h
  | stop p =>
    simp only [step] at h
    split at h
    · simp at h
    · simp at h
    · next off hp =>
      simp only [Option.some.injEq] at h
      subst h
      exact .stopWriting p off hp
    · next h1 h2 h3 =>
      simp only [Option.some.injEq] at h
      subst h
      exact .stop p (fun off ho => h3 off ho) (fun f hf => h1 f hf) (fun x hx => h2 x hx)

/-- What holds at all times: what is in the file, and how far somebody has written it. -/
structure Bridge.Inv (script : List UInt8) (s : Sys) : Prop where
  offs : ∀ p off, s.phase p = .writing off → off ≤ script.length
  bytes : ∀ f, s.file = some f → f.length ≤ script.length ∧ ∀ (i : Nat) (b : UInt8), f[i]? = some b → b = 0 ∨ script[i]? = some b
  front : ∀ f, s.file = some f → ∃ k, k ≤ script.length ∧ (∀ i : Nat, i < k → f[i]? = script[i]?) ∧
    (k = script.length ∨ ∃ x, s.phase x = .writing k ∨ s.phase x = .ended (some k))

theorem go_same (s : Sys) (p : Nat) (x : Bridge.Phase) : (s.go p x).phase p = x := by simp [Bridge.Sys.go]

theorem go_other (s : Sys) (p q : Nat) (x : Bridge.Phase) (h : q ≠ p) : (s.go p x).phase q = s.phase q := by simp [Bridge.Sys.go, h]

theorem inv_step {script : List UInt8} {s s' : Sys} {a : Act} (hi : Bridge.Inv script s) (h : Bridge.Does script s a s') : Bridge.Inv script s' := by
  -- a call that goes elsewhere without writing
  have move : ∀ p x, (∀ off, x = .writing off → off ≤ script.length) →
      (∀ k, k < script.length → (s.phase p = .writing k ∨ s.phase p = .ended (some k)) → (x = .writing k ∨ x = .ended (some k))) →
      Bridge.Inv script (s.go p x) := by
    intro p x h1 h2
    refine ⟨?_, hi.bytes, ?_⟩
    · intro q off hq
      by_cases hqp : q = p
      · subst hqp
        rw [go_same] at hq
        exact h1 off hq
      · rw [go_other _ _ _ _ hqp] at hq
        exact hi.offs q off hq
    · intro f hf
      obtain ⟨k, hk, hkf, hx⟩ := hi.front f hf
      refine ⟨k, hk, hkf, ?_⟩
      by_cases hkl : k = script.length
      · exact .inl hkl
      · right
        obtain ⟨y, hy⟩ := hx.resolve_left hkl
        refine ⟨y, ?_⟩
        by_cases hyp : y = p
        · subst hyp
          rw [go_same]
          exact h2 k (by omega) hy
        · rw [go_other _ _ _ _ hyp]
          exact hy
  cases h with
  | found p f hp hf => exact move p _ (by intro _ h; cases h) (by intro k _ h; rw [hp] at h; rcases h with h | h <;> cases h)
  | absent p hp hf => exact move p _ (by intro _ h; cases h) (by intro k _ h; rw [hp] at h; rcases h with h | h <;> cases h)
  | serve p f hp hf => exact move p _ (by intro _ h; cases h) (by intro k _ h; rw [hp] at h; rcases h with h | h <;> cases h)
  | written p k off f hp hf ho =>
    refine move p _ (by intro _ h; cases h) ?_
    intro j hj h
    rw [hp] at h
    rcases h with h | h
    · injection h with h
      omega
    · cases h
  | stopWriting p off hp =>
    refine move p _ (by intro _ h; cases h) ?_
    intro j hj h
    rw [hp] at h
    rcases h with h | h
    · injection h with h
      subst h
      exact .inr rfl
    · cases h
  | stop p h1 h2 h3 =>
    refine move p _ (by intro _ h; cases h) ?_
    intro j hj h
    rcases h with h | h
    · exact absurd h (h1 _)
    · exact absurd h (h3 _)
  | create p hp =>
    refine ⟨?_, ?_, ?_⟩
    · intro q off hq
      by_cases hqp : q = p
      · subst hqp
        rw [show ({ s.go q (.writing 0) with file := some [] } : Sys).phase q = (s.go q (.writing 0)).phase q from rfl, go_same] at hq
        injection hq with hq
        omega
      · rw [show ({ s.go p (.writing 0) with file := some [] } : Sys).phase q = (s.go p (.writing 0)).phase q from rfl, go_other _ _ _ _ hqp] at hq
        exact hi.offs q off hq
    · intro f hf
      simp only [Option.some.injEq] at hf
      subst hf
      simp
    · intro f hf
      exact ⟨0, Nat.zero_le _, by intro i hi; omega, .inr ⟨p, .inl (go_same s p _)⟩⟩
  | write p k off f hp hf ho =>
    have hoff := hi.offs p off hp
    have hlen : ((script.drop off).take (k + 1)).length = min (k + 1) (script.length - off) := by simp
    obtain ⟨hb1, hb2⟩ := hi.bytes f hf
    obtain ⟨j, hj, hjf, hx⟩ := hi.front f hf
    have hget : ∀ i : Nat, off ≤ i → i < off + ((script.drop off).take (k + 1)).length →
        (writeAt f off ((script.drop off).take (k + 1)))[i]? = script[i]? := by
      intro i h1 h2
      rw [writeAt_getElem?, if_neg (by omega), if_pos h2, List.getElem?_take, if_pos (by omega), List.getElem?_drop]
      congr 1
      omega
    have hkeep : ∀ i : Nat, f[i]? = script[i]? → i < script.length →
        (writeAt f off ((script.drop off).take (k + 1)))[i]? = script[i]? := by
      intro i h1 h2
      by_cases h3 : off ≤ i ∧ i < off + ((script.drop off).take (k + 1)).length
      · exact hget i h3.1 h3.2
      · have hfi : i < f.length := by
          apply Classical.byContradiction
          intro hc
          rw [List.getElem?_eq_none (by omega), List.getElem?_eq_getElem h2] at h1
          cases h1
        rw [writeAt_getElem?]
        by_cases h4 : i < off
        · rw [if_pos h4, if_pos hfi, h1]
        · rw [if_neg h4, if_neg (by omega), h1]
    refine ⟨?_, ?_, ?_⟩
    · intro q o hq
      by_cases hqp : q = p
      · subst hqp
        have hq : (s.go q (.writing (off + ((script.drop off).take (k + 1)).length))).phase q = .writing o := hq
        rw [go_same] at hq
        injection hq with hq
        omega
      · have hq : (s.go p (.writing (off + ((script.drop off).take (k + 1)).length))).phase q = .writing o := hq
        rw [go_other _ _ _ _ hqp] at hq
        exact hi.offs q o hq
    · intro g hg
      simp only [Option.some.injEq] at hg
      subst hg
      refine ⟨by rw [writeAt_length]; omega, ?_⟩
      intro i b hib
      by_cases h3 : off ≤ i ∧ i < off + ((script.drop off).take (k + 1)).length
      · rw [hget i h3.1 h3.2] at hib
        exact .inr hib
      · rw [writeAt_getElem?] at hib
        by_cases h4 : i < off
        · rw [if_pos h4] at hib
          split at hib
          · exact hb2 i b hib
          · simp only [Option.some.injEq] at hib
            exact .inl hib.symm
        · rw [if_neg h4, if_neg (by omega)] at hib
          exact hb2 i b hib
    · intro g hg
      simp only [Option.some.injEq] at hg
      subst hg
      by_cases hmine : s.phase p = .writing j ∧ j < script.length
      · have hjo : off = j := by
          have := hmine.1
          rw [hp] at this
          injection this
        subst hjo
        refine ⟨off + ((script.drop off).take (k + 1)).length, by omega, ?_, .inr ⟨p, .inl (go_same s p _)⟩⟩
        intro i hi'
        by_cases h3 : off ≤ i
        · exact hget i h3 hi'
        · exact hkeep i (hjf i (by omega)) (by omega)
      · refine ⟨j, hj, fun i hi' => hkeep i (hjf i hi') (by omega), ?_⟩
        by_cases hjl : j = script.length
        · exact .inl hjl
        · right
          obtain ⟨y, hy⟩ := hx.resolve_left hjl
          refine ⟨y, ?_⟩
          have hyp : y ≠ p := by
            rintro rfl
            rcases hy with hy | hy
            · exact hmine ⟨hy, by omega⟩
            · rw [hp] at hy
              cases hy
          show (s.go p _).phase y = _ ∨ (s.go p _).phase y = _
          rw [go_other _ _ _ _ hyp]
          exact hy

theorem inv_runs {script : List UInt8} {s s' : Sys} {l : List Act} (hi : Bridge.Inv script s) (h : Runs script s l s') : Bridge.Inv script s' := by
  induction h with
  | nil => exact hi
  | snoc _ hs ih => exact inv_step ih (bridge_does hs)

theorem inv_fresh (script : List UInt8) : Bridge.Inv script (fresh none) :=
  ⟨(by intro p off h; cases h), (by intro f h; cases h), (by intro f h; cases h)⟩

/-- **C109 (nothing foreign).** Where no file was, at all times and under every schedule, failure and crash, the file in the place of the
script has no byte that is not of the script: each is that of the script at its position, or 0 where it was not written yet. -/
theorem C109_bytes (script : List UInt8) (l : List Act) (s : Sys) (h : Runs script (fresh none) l s) (f : List UInt8) (hf : s.file = some f) :
    f.length ≤ script.length ∧ ∀ (i : Nat) (b : UInt8), f[i]? = some b → b = 0 ∨ script[i]? = some b :=
  (inv_runs (inv_fresh script) h).bytes f hf

/-- **C109 (partial).** Where no file was: whenever nobody is in the middle of writing the script, and nobody stopped in the middle of it,
the file is the whole script - however many calls found no file at the same time and wrote it.  So the request of a call is then served by
the whole script.  Missing: calls served while another writes, and after one that stopped, see `C109_refuted` and `C109_forever`. -/
theorem C109_whole_partial (script : List UInt8) (l : List Act) (s : Sys) (h : Runs script (fresh none) l s)
    (hquiet : ∀ p off, off < script.length → s.phase p ≠ .writing off ∧ s.phase p ≠ .ended (some off)) :
    (s.file = none ∨ s.file = some script) ∧
    ∀ p s', step script s (.serve p) = some s' → s'.phase p = .served script := by
  have hi := inv_runs (inv_fresh script) h
  have hfile : s.file = none ∨ s.file = some script := by
    cases hf : s.file with
    | none => exact .inl rfl
    | some f =>
      right
      obtain ⟨k, hk, hkf, hx⟩ := hi.front f hf
      have hk' : k = script.length := by
        rcases hx with hx | ⟨x, hx⟩
        · exact hx
        · apply Classical.byContradiction
          intro hc
          have := hquiet x k (by omega)
          rcases hx with hx | hx
          · exact this.1 hx
          · exact this.2 hx
      subst hk'
      congr 1
      apply List.ext_getElem?
      intro i
      by_cases hil : i < script.length
      · exact hkf i hil
      · rw [List.getElem?_eq_none (by have := (hi.bytes f hf).1; omega), List.getElem?_eq_none (by omega)]
  refine ⟨hfile, ?_⟩
  intro p s' hs
  cases bridge_does hs with
  | serve p f hp hf =>
    rcases hfile with h0 | h0
    · rw [h0] at hf; cases hf
    · rw [h0] at hf
      simp only [Option.some.injEq] at hf
      subst hf
      exact go_same _ _ _

/-- **C109 (what is there stays).** A file that is in the place of the script is never changed once nobody writes it or is about to - whatever
it is: the script of another version, one that was cut, or a foreign file - and every later call is served by it. -/
theorem C109_kept (script f : List UInt8) (s s' : Sys) (l : List Act) (h : Runs script s l s') (hf : s.file = some f)
    (hidle : ∀ p, s.phase p ≠ .missing ∧ ∀ off, s.phase p ≠ .writing off) :
    s'.file = some f ∧ ∀ p g, s'.phase p = .served g → s.phase p = .served g ∨ g = f := by
  have key : s'.file = some f ∧ (∀ p, s'.phase p ≠ .missing ∧ ∀ off, s'.phase p ≠ .writing off) ∧
      ∀ p g, s'.phase p = .served g → s.phase p = .served g ∨ g = f := by
    induction h with
    | nil => exact ⟨hf, hidle, fun p g h => .inl h⟩
    | snoc _ hs ih =>
      obtain ⟨h1, h2, h3⟩ := ih
      have move : ∀ (t : Sys) p x, t.file = some f → (∀ p, t.phase p ≠ .missing ∧ ∀ off, t.phase p ≠ .writing off) →
          (∀ p g, t.phase p = .served g → s.phase p = .served g ∨ g = f) →
          (x ≠ .missing ∧ ∀ off, x ≠ .writing off) → (∀ g, x = .served g → g = f) →
          (t.go p x).file = some f ∧ (∀ q, (t.go p x).phase q ≠ .missing ∧ ∀ off, (t.go p x).phase q ≠ .writing off) ∧
          ∀ q g, (t.go p x).phase q = .served g → s.phase q = .served g ∨ g = f := by
        intro t p x g1 g2 g3 g4 g5
        refine ⟨g1, ?_, ?_⟩
        · intro q
          by_cases hq : q = p
          · subst hq; rw [go_same]; exact g4
          · rw [go_other _ _ _ _ hq]; exact g2 q
        · intro q g
          by_cases hq : q = p
          · subst hq; rw [go_same]; exact fun h => .inr (g5 g h)
          · rw [go_other _ _ _ _ hq]; exact g3 q g
      cases bridge_does hs with
      | found p f' hp hf' => exact move _ p _ h1 h2 h3 ⟨by simp, by simp⟩ (by simp)
      | absent p hp hf' => rw [h1] at hf'; cases hf'
      | create p hp => exact absurd hp (h2 p).1
      | write p k off f' hp hf' ho => exact absurd hp ((h2 p).2 off)
      | written p k off f' hp hf' ho => exact absurd hp ((h2 p).2 off)
      | serve p f' hp hf' =>
        rw [h1] at hf'
        simp only [Option.some.injEq] at hf'
        subst hf'
        exact move _ p _ h1 h2 h3 ⟨by simp, by simp⟩ (by simp)
      | stopWriting p off hp => exact absurd hp ((h2 p).2 off)
      | stop p _ _ _ => exact move _ p _ h1 h2 h3 ⟨by simp, by simp⟩ (by simp)
  exact ⟨key.1, key.2.2⟩

/-- **C109 (refuted).** While one call writes the script another finds the file and is served by an empty script. -/
theorem C109_refuted (script : List UInt8) :
    ∃ s, Runs script (fresh none) [.exists_ 0, .create 0, .exists_ 1, .serve 1] s ∧ s.phase 1 = .served [] := by
  refine ⟨_, .snoc (l := [.exists_ 0, .create 0, .exists_ 1]) (.snoc (l := [.exists_ 0, .create 0]) (.snoc (l := [.exists_ 0])
    (.snoc (l := []) (.nil _) rfl) rfl) rfl) rfl, rfl⟩

/-- **C109 (forever).** A call that stops in the middle of writing (its process dies, the disk is full) leaves a cut script, from any
length on, and every later call is served by this cut script. -/
theorem C109_forever (script : List UInt8) (k : Nat) (hk : k < script.length) :
    ∃ s l, Runs script (fresh none) l s ∧ s.file = some (script.take k) ∧ s.phase 0 = .ended (some k) ∧
      ∀ l' s', Runs script s l' s' → s'.file = some (script.take k) ∧ ∀ p g, s'.phase p = .served g → g = script.take k := by
  have hrun : ∃ s l, Runs script (fresh none) l s ∧ s.file = some (script.take k) ∧ s.phase 0 = .ended (some k) ∧
      ∀ p, p ≠ 0 → s.phase p = .start := by
    have h1 : Runs script (fresh none) [.exists_ 0, .create 0] _ := .snoc (l := [.exists_ 0]) (.snoc (l := []) (.nil _) rfl) rfl
    cases k with
    | zero => exact ⟨_, _, .snoc (a := .stop 0) h1 rfl, rfl, rfl, fun p hp => by simp [Bridge.Sys.go, fresh, hp]⟩
    | succ k =>
      have hd : script.drop 0 ≠ [] := by
        intro h
        rw [List.drop_zero] at h
        rw [h] at hk
        simp at hk
      have h2 := Runs.snoc (a := .write 0 k) h1 (by
        simp only [step, Bridge.Sys.go, if_true]
        rw [if_neg hd])
      have h3 := Runs.snoc (a := .stop 0) h2 (by
        simp only [step, Bridge.Sys.go, if_true]
        rfl)
      refine ⟨_, _, h3, ?_, ?_, ?_⟩
      · simp [writeAt]
      · simp
        omega
      · intro p hp
        simp [hp, fresh]
  obtain ⟨s, l, h1, h2, h3, h4⟩ := hrun
  refine ⟨s, l, h1, h2, h3, ?_⟩
  intro l' s' h
  have hidle : ∀ p, s.phase p ≠ .missing ∧ ∀ off, s.phase p ≠ .writing off := by
    intro p
    by_cases hp : p = 0
    · subst hp
      rw [h3]
      exact ⟨by simp, by simp⟩
    · rw [h4 p hp]
      exact ⟨by simp, by simp⟩
  obtain ⟨g1, g2⟩ := C109_kept script _ s s' l' h h2 hidle
  refine ⟨g1, fun p g hg => ?_⟩
  rcases g2 p g hg with h | h
  · by_cases hp : p = 0
    · subst hp
      rw [h3] at h
      cases h
    · rw [h4 p hp] at h
      cases h
  · exact h

/-! ### The premises are met -/

/-- Two calls that found no file write the script, the second over the first, and both are served by the whole script. -/
example : ∃ s, Runs [1, 2, 3] (fresh none) [.exists_ 0, .exists_ 1, .create 0, .write 0 1, .create 1, .write 0 0, .write 1 4, .write 0 0,
      .write 1 0, .serve 0, .serve 1] s ∧ s.phase 0 = .served [1, 2, 3] ∧ s.phase 1 = .served [1, 2, 3] := by
  refine ⟨_, .snoc (l := [_, _, _, _, _, _, _, _, _, _]) (.snoc (l := [_, _, _, _, _, _, _, _, _]) (.snoc (l := [_, _, _, _, _, _, _, _])
    (.snoc (l := [_, _, _, _, _, _, _]) (.snoc (l := [_, _, _, _, _, _]) (.snoc (l := [_, _, _, _, _]) (.snoc (l := [_, _, _, _])
    (.snoc (l := [_, _, _]) (.snoc (l := [_, _]) (.snoc (l := [_]) (.snoc (l := []) (.nil _) rfl) rfl) rfl) rfl) rfl) rfl) rfl) rfl) rfl) rfl) rfl,
    rfl, rfl⟩

end Nts
