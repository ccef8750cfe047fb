import Verif.Props.Lang
/-
C94: the limit on the number of BIFs does not limit the output.
-/
set_option autoImplicit false
namespace Nts
open Spec

/-- `n` copies of a text, one after the other. -/
def Spec.copies : Nat → Str → Str
  | 0, _ => []
  | n + 1, t => t ++ copies n t

/-- A loop over text, whatever the rounds set. -/
theorem loop_text (S : Site) (al t : Str) : ∀ (l : List (List (Str × Value))) (m : Mem),
    (loopOf false (meansAll S al [.text t]) l m).1 = copies l.length (trim t) ∧
    (loopOf false (meansAll S al [.text t]) l m).2.bifs = m.bifs := by
  intro l
  induction l with
  | nil => intro m; exact ⟨rfl, rfl⟩
  | cons vs l ih =>
    intro m
    have h := ih { m with data := setAll vs m.data }
    have hb : blockOf false (meansAll S al [.text t]) { m with data := setAll vs m.data } = (trim t, { m with data := setAll vs m.data }) := by
      simp only [blockOf, meansAll, Node.means, List.append_nil]
      rfl
    simp only [loopOf, hb, List.length_cons, copies]
    exact ⟨by rw [h.1], h.2⟩

theorem span_length (a b : Int) : (span a b).length = (b - a).natAbs + 1 := by simp [span]

/-- The meaning of the loop as a template. -/
theorem range_text (S : Site) (v t : Str) (a b : Int) (m : Mem) :
    (meansAll S [] [.range false v a b [.text t]] m).1 = trim (copies ((b - a).natAbs + 1) (trim t)) ∧
    (meansAll S [] [.range false v a b [.text t]] m).2.bifs = m.bifs + 1 := by
  have h := loop_text S c!"for" t ((span a b).map (fun i => [(v, .str (showInt i))])) { m with bifs := m.bifs + 1 }
  rw [List.length_map, span_length] at h
  generalize hr : meansAll S c!"for" [.text t] = run at h
  simp only [meansAll.eq_2 S [] , meansAll.eq_1, Node.means, bifOf]
  rw [if_neg (by simp), hr]
  simp only [List.append_nil]
  exact ⟨by rw [h.1], h.2⟩

/-- A text without `{` several times has no delimiter. -/
theorem copies_chars {c : Char} {t : Str} (h : c ∉ t) : ∀ n, c ∉ copies n t := by
  intro n
  induction n with
  | zero => simp [copies]
  | succ n ih => simp only [copies, List.mem_append, not_or]; exact ⟨h, ih⟩

/-- A text without white space is not trimmed. -/
theorem trim_dense {s : Str} (h : ∀ c ∈ s, isWs c = false) : trim s = s := by
  obtain ⟨w1, w2, he, h1, h2⟩ := trim_parts s
  have e1 : w1 = [] := by
    cases w1 with
    | nil => rfl
    | cons c r => have := h1 c (by simp); rw [h c (by rw [he]; simp)] at this; cases this
  have e2 : w2 = [] := by
    cases w2 with
    | nil => rfl
    | cons c r => have := h2 c (by simp); rw [h c (by rw [he]; simp)] at this; cases this
  rw [e1, e2, List.append_nil, List.nil_append] at he
  exact he.symm

theorem copies_all {P : Char → Prop} {t : Str} (h : ∀ c ∈ t, P c) : ∀ n, ∀ c ∈ copies n t, P c := by
  intro n
  induction n with
  | zero => simp [copies]
  | succ n ih =>
    intro c hc
    simp only [copies, List.mem_append] at hc
    exact hc.elim (h c) (ih c)

theorem copies_length (t : Str) : ∀ n, (copies n t).length = n * t.length := by
  intro n
  induction n with
  | zero => simp [copies]
  | succ n ih => simp only [copies, List.length_append, ih, Nat.succ_mul]; omega

/-- **C94.** Whatever the limit on BIFs (one is enough), a template with a single BIF prints as many copies of a text as its
range has numbers, up to `2 ^ 32`. -/
theorem C94_copies (env : Env) (n : Nat) (w : World) (tpl : Tpl) (S : Site) (v t : Str) (a b : Int) (sh : Shared) (s d defs : Obj)
    (hnew : Shared.new env w tpl.schema = some sh) (hS : SiteOf env sh S)
    (hv : SetOk v) (hdot : '.' ∉ v) (ha : -(2 ^ 31) ≤ a ∧ a < 2 ^ 31) (hb : -(2 ^ 31) ≤ b ∧ b < 2 ^ 31)
    (ht : TextOk t) (hbrace : ∀ c ∈ t, c ≠ '{' ∧ c ≠ '&' ∧ isWs c = false)
    (hraw : tpl.raw = printAll [.range false v a b [.text t]])
    (hs : tpl.schema = .obj s) (hd : Obj.get? c!"data" s = some (.obj d))
    (hinh : Obj.get? c!"inherit" s = some (.obj defs)) (hdefs : Defs S defs) (hmax : 1 ≤ sh.max) :
    ∃ tpl', tpl.render env n w = .ok tpl' ∧ tpl'.out = copies ((b - a).natAbs + 1) t ∧
      tpl'.out.length = ((b - a).natAbs + 1) * t.length ∧ tpl'.statusCode = c!"200" ∧ tpl'.hasError = false ∧ tpl'.shared.count = 1 := by
  have hm := range_text S v t a b (startMem d defs)
  have hN := copies_all hbrace ((b - a).natAbs + 1)
  have ht1 : trim t = t := trim_dense (fun c hc => (hbrace c hc).2.2)
  have ht2 : trim (copies ((b - a).natAbs + 1) t) = copies ((b - a).natAbs + 1) t := trim_dense (fun c hc => (hN c hc).2.2)
  rw [ht1, ht2] at hm
  obtain ⟨r, t', rfl, hr, htr, _⟩ := C77_render env n w tpl S [.range false v a b [.text t]] sh s d defs hnew hS
    (by simp only [AllOk, Node.Ok, and_true]; exact ⟨hv, hdot, ha, hb, ht⟩) hraw
    ⟨[], c!"for; " ++ (v ++ c!" " ++ showInt a ++ c!".." ++ showInt b) ++ c!" >> " ++ printAll [.text t] ++ c!" :}", by
      simp [printAll, Node.print, bifText, marks]⟩ hs hd hinh hdefs (by rw [hm.2]; exact hmax)
    (by
      rw [hm.1, ht2]
      rintro ⟨p, q, h⟩
      exact (hN '{' (h ▸ by simp)).1 rfl)
  rw [hm.1, hm.2] at htr
  have ho : t'.out = copies ((b - a).natAbs + 1) t := by
    rw [htr.out, ht2]
    refine C47_unchanged _ ?_ ?_
    · rintro ⟨p, q, h⟩
      exact (hN '&' (h ▸ by simp)).2.1 rfl
    · rintro ⟨p, q, h⟩
      exact (hN '&' (h ▸ by simp)).2.1 rfl
  exact ⟨t', hr, ho, by rw [ho, copies_length], htr.code, htr.noError.1, htr.ran⟩

set_option maxRecDepth 10000 in
/-- **C94, the limit does not bound the output**: a template of forty characters, rendered with a limit of one BIF and no data,
prints four thousand million characters. -/
theorem C94_bounded_refuted : ∃ tpl', (Sample.tpl (Sample.schema 1 Sample.pageData Sample.pageDefs)
      c!"{:for; i -2147483648..2147483647 >> x :}").render Sample.env 10 Sample.pageWorld = .ok tpl' ∧
    tpl'.out.length = 4294967296 ∧ tpl'.statusCode = c!"200" ∧ tpl'.hasError = false ∧ tpl'.shared.count = 1 := by
  obtain ⟨t', h, _, hl, h1, h2, h3⟩ := C94_copies Sample.env 10 Sample.pageWorld
    (Sample.tpl (Sample.schema 1 Sample.pageData Sample.pageDefs) c!"{:for; i -2147483648..2147483647 >> x :}") Sample.pageSite
    c!"i" c!"x" (-2147483648) 2147483647 _ _ Sample.pageData Sample.pageDefs rfl
    ⟨rfl, rfl, rfl, rfl, rfl, rfl, by
      intro p t h
      simp only [Sample.pageSite] at h
      split at h
      · next hp =>
        simp only [Option.some.injEq] at h
        subst h hp
        exact ⟨_, _, rfl, rfl, rfl⟩
      · simp at h⟩
    ⟨nameOk_of (by decide), by decide⟩ (by decide) (by decide) (by decide) (textOk_of (by decide)) (by decide) (by decide +kernel)
    rfl rfl rfl ⟨.inr ⟨_, rfl⟩, rfl, rfl⟩ (by decide)
  exact ⟨t', h, hl, h1, h2, h3⟩

/-- Five copies. -/
example : (Sample.outOf ((Sample.tpl (Sample.schema 1 Sample.pageData Sample.pageDefs) c!"{:for; i 1..5 >> ab :}").render Sample.env 10
    Sample.pageWorld)).map (·.1) = some (copies 5 c!"ab") := by decide +kernel

end Nts
