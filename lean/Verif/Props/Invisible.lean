import Verif.Spec.Invisible
import Verif.Props.Nest
/-
C121: the cache is invisible to requests it need not tell apart.
-/
set_option autoImplicit false
namespace Nts
open Spec

/-- What a cache holds in a history of such requests. -/
def Holds (env : Env) (C : Caching) (known : Chunk → Prop) (kinds : Kind → Prop) (w : World) : Prop :=
  ∀ text expires en, w.fs (entryFile env C.dir C.pre text expires) = some en →
    ∃ e i o body k data, known (.cached e i o body) ∧ kinds k ∧ k.data data ∧
      pieceFile env k.S C data e i o body = entryFile env C.dir C.pre text expires ∧ en.content = some (trim (k.showsAll c!"cache" body))

theorem Holds.fs {env : Env} {C : Caching} {known : Chunk → Prop} {kinds : Kind → Prop} {w w' : World} (h : Holds env C known kinds w)
    (hw : w'.fs = w.fs) : Holds env C known kinds w' := by
  intro text expires en hen
  rw [hw] at hen
  exact h text expires en hen

mutual
theorem piece_invisible {env : Env} {C : Caching} {known : Chunk → Prop} {kinds : Kind → Prop} (hf : Faithful env C known kinds)
    (hin : ∀ e i o body, known (.cached e i o body) → ∀ x ∈ body, known x) {k : Kind} (hk : kinds k) : ∀ (x : Chunk) (al : Str) (m : Mem) (w : World),
    known x → k.SteadyIn al x → k.data m.data → k.defs m.defs → Holds env C known kinds w →
    (x.means env k.S C al m w).1 = k.shows al x ∧ k.data (x.means env k.S C al m w).2.1.data ∧ k.defs (x.means env k.S C al m w).2.1.defs ∧
      Holds env C known kinds (x.means env k.S C al m w).2.2
  | .plain l, al, m, w, hx, hs, hd, hdf, hh => by
    simp only [Kind.SteadyIn] at hs
    simp only [Chunk.means, Kind.shows]
    obtain ⟨h1, h2, h3⟩ := hs m hd hdf
    exact ⟨h1, h2, h3, hh⟩
  | .cached e i o body, al, m, w, hx, hs, hd, hdf, hh => by
    simp only [Kind.SteadyIn] at hs
    simp only [Chunk.means, Kind.shows]
    have body_run : ∀ w1 : World, w1.fs = w.fs →
        (blockIn (piecesMean env k.S C c!"cache" body) { m with bifs := m.bifs + 1 } w1).1 = trim (k.showsAll c!"cache" body) ∧
        k.data (blockIn (piecesMean env k.S C c!"cache" body) { m with bifs := m.bifs + 1 } w1).2.1.data ∧
        k.defs (blockIn (piecesMean env k.S C c!"cache" body) { m with bifs := m.bifs + 1 } w1).2.1.defs ∧
        Holds env C known kinds (blockIn (piecesMean env k.S C c!"cache" body) { m with bifs := m.bifs + 1 } w1).2.2 := by
      intro w1 hw
      obtain ⟨h1, h2, h3, h4⟩ := pieces_invisible hf hin hk body c!"cache" { m with bifs := m.bifs + 1 } w1 (hin e i o body hx) hs hd hdf (hh.fs hw)
      exact ⟨congrArg trim h1, h2, hdf, h4⟩
    generalize hfile : pieceFile env k.S C m.data e i o body = file
    unfold cachedIn
    split
    · cases hfr : freshIn env e file w with
      | some text =>
        dsimp only
        refine ⟨?_, hd, hdf, hh.fs (looked_fs file w)⟩
        unfold freshIn at hfr
        cases hen : w.fs file with
        | none => rw [hen] at hfr; simp at hfr
        | some en =>
          rw [hen] at hfr
          simp only at hfr
          split at hfr
          · simp at hfr
          · simp only [Option.some.injEq] at hfr
            rw [← hfile] at hen
            obtain ⟨e', i', o', body', k', data', h1, h2, h3, h4, h5⟩ := hh _ _ en hen
            have := hf _ _ _ _ _ _ _ _ h1 hx _ _ _ _ h2 hk h3 hd h4
            rw [← hfr, h5, Option.getD_some, this, trim_idem]
      | none =>
        dsimp only
        obtain ⟨h1, h2, h3, h4⟩ := body_run (looked file w) (looked_fs file w)
        refine ⟨by rw [h1, trim_idem], h2, h3, ?_⟩
        intro text expires en hen
        simp only [storedIn] at hen
        split at hen
        · next heq =>
          simp only [Option.some.injEq] at hen
          exact ⟨e, i, o, body, k, m.data, hx, hk, hd, hfile.trans heq.symm, by rw [← hen, h1]⟩
        · exact h4 text expires en hen
    · obtain ⟨h1, h2, h3, h4⟩ := body_run w rfl
      exact ⟨by rw [h1, trim_idem], h2, h3, h4⟩
theorem pieces_invisible {env : Env} {C : Caching} {known : Chunk → Prop} {kinds : Kind → Prop} (hf : Faithful env C known kinds)
    (hin : ∀ e i o body, known (.cached e i o body) → ∀ x ∈ body, known x) {k : Kind} (hk : kinds k) : ∀ (l : List Chunk) (al : Str) (m : Mem) (w : World),
    (∀ x ∈ l, known x) → k.SteadyAll al l → k.data m.data → k.defs m.defs → Holds env C known kinds w →
    (piecesMean env k.S C al l m w).1 = k.showsAll al l ∧ k.data (piecesMean env k.S C al l m w).2.1.data ∧
      k.defs (piecesMean env k.S C al l m w).2.1.defs ∧ Holds env C known kinds (piecesMean env k.S C al l m w).2.2
  | [], al, m, w, hx, hs, hd, hdf, hh => by
    simp only [piecesMean, Kind.showsAll]
    exact ⟨trivial, hd, hdf, hh⟩
  | x :: l, al, m, w, hx, hs, hd, hdf, hh => by
    simp only [Kind.SteadyAll] at hs
    simp only [piecesMean, Kind.showsAll]
    obtain ⟨h1, h2, h3, h4⟩ := piece_invisible hf hin hk x al m w (hx x (by simp)) hs.1 hd hdf hh
    obtain ⟨g1, g2, g3, g4⟩ := pieces_invisible hf hin hk l al _ _ (fun y hy => hx y (by simp [hy])) hs.2 h2 h3 h4
    exact ⟨by rw [h1, g1], g2, g3, g4⟩
end

theorem served_holds {env : Env} {C : Caching} {known : Chunk → Prop} {kinds : Kind → Prop} (hf : Faithful env C known kinds)
    (hin : ∀ e i o body, known (.cached e i o body) → ∀ x ∈ body, known x) {w0 w : World} (h : Served env C known kinds w0 w)
    (h0 : ∀ text expires, w0.fs (entryFile env C.dir C.pre text expires) = none) : Holds env C known kinds w := by
  induction h with
  | start =>
    intro text expires en h
    rw [h0] at h
    simp at h
  | ask k l m _ hk hl hs hd hdf ih => exact (pieces_invisible hf hin hk l [] m _ hl hs hd hdf ih).2.2.2
  | other _ hw ih =>
    intro text expires en hen
    rcases hw text expires with h | h
    · rw [h] at hen
      exact ih text expires en hen
    · rw [h] at hen
      simp at hen

/-! ### C121 -/

/-- **C121 (invisible).** For every site, every page of templates and cached parts nested to any depth, every set of kinds of requests and of
cached parts such that parts that share an entry show the same, and every history of such requests from a cache without entries — in any
order, with any lifetimes and any clock, with entries removed at any time: a page whose templates are steady shows to a request of a kind exactly what it shows
if there is no cache, and the request ends as one of its kind. -/
theorem C121_invisible (env : Env) (C : Caching) (known : Chunk → Prop) (kinds : Kind → Prop) (hf : Faithful env C known kinds)
    (hin : ∀ e i o body, known (.cached e i o body) → ∀ x ∈ body, known x) (w0 w : World) (h : Served env C known kinds w0 w)
    (h0 : ∀ text expires, w0.fs (entryFile env C.dir C.pre text expires) = none)
    (k : Kind) (hk : kinds k) (l : List Chunk) (hl : ∀ x ∈ l, known x) (hs : k.SteadyAll [] l) (m : Mem) (hd : k.data m.data) (hdf : k.defs m.defs) :
    (piecesMean env k.S C [] l m w).1 = k.showsAll [] l ∧ k.data (piecesMean env k.S C [] l m w).2.1.data ∧
      k.defs (piecesMean env k.S C [] l m w).2.1.defs :=
  have := pieces_invisible hf hin hk l [] m w hl hs hd hdf (served_holds hf hin h h0)
  ⟨this.1, this.2.1, this.2.2.1⟩

/-- **C121 (no cache).** `showsAll` is what the page shows in a site where the cache is disabled, whatever is in the directory of the cache. -/
theorem C121_without (env : Env) (C : Caching) (hC : C.disabled = true) (k : Kind) (l : List Chunk) (hs : k.SteadyAll [] l) (m : Mem) (w : World)
    (hd : k.data m.data) (hdf : k.defs m.defs) : (piecesMean env k.S C [] l m w).1 = k.showsAll [] l := by
  have hoff : ∀ data, ¬ C.on data := by
    intro data h
    rw [h.1] at hC
    cases hC
  have key : ∀ n, (∀ (x : Chunk) (al : Str) (m : Mem) (w : World), sizeOf x < n → k.SteadyIn al x → k.data m.data → k.defs m.defs →
        (x.means env k.S C al m w).1 = k.shows al x ∧ k.data (x.means env k.S C al m w).2.1.data ∧ k.defs (x.means env k.S C al m w).2.1.defs) ∧
      (∀ (l : List Chunk) (al : Str) (m : Mem) (w : World), sizeOf l < n → k.SteadyAll al l → k.data m.data → k.defs m.defs →
        (piecesMean env k.S C al l m w).1 = k.showsAll al l ∧ k.data (piecesMean env k.S C al l m w).2.1.data ∧
          k.defs (piecesMean env k.S C al l m w).2.1.defs) := by
    intro n
    induction n with
    | zero => exact ⟨fun _ _ _ _ h => absurd h (by omega), fun _ _ _ _ h => absurd h (by omega)⟩
    | succ n ih =>
      refine ⟨?_, ?_⟩
      · intro x al m w hn hs hd hdf
        cases x with
        | plain l =>
          simp only [Kind.SteadyIn] at hs
          simp only [Chunk.means, Kind.shows]
          exact hs m hd hdf
        | cached e i o body =>
          simp only [Kind.SteadyIn] at hs
          simp only [Chunk.means, Kind.shows]
          unfold cachedIn
          rw [if_neg (hoff _)]
          simp only [Chunk.cached.sizeOf_spec] at hn
          obtain ⟨h1, h2, h3⟩ := ih.2 body c!"cache" { m with bifs := m.bifs + 1 } w (by omega) hs hd hdf
          exact ⟨by show trim (trim _) = _; rw [h1, trim_idem], h2, hdf⟩
      · intro l al m w hn hs hd hdf
        cases l with
        | nil =>
          simp only [piecesMean, Kind.showsAll]
          exact ⟨trivial, hd, hdf⟩
        | cons x l =>
          simp only [Kind.SteadyAll] at hs
          simp only [piecesMean, Kind.showsAll]
          simp only [List.cons.sizeOf_spec] at hn
          obtain ⟨h1, h2, h3⟩ := ih.1 x al m w (by omega) hs.1 hd hdf
          obtain ⟨g1, g2, g3⟩ := ih.2 l al _ (x.means env k.S C al m w).2.2 (by omega) hs.2 h2 h3
          exact ⟨by rw [h1, g1], g2, g3⟩
  exact ((key (sizeOf l + 1)).2 l [] m w (by omega) hs hd hdf).1

/-- **C121 (renders).** The render of such a page, in such a history, prints exactly what the page shows if there is no cache; and the history goes on. -/
theorem C121_render (env : Env) (n : Nat) (w w0 : World) (t : Tpl) (k : Kind) (C : Caching) (l : List Chunk) (sh : Shared) (s d defs : Obj)
    (hnew : Shared.new env w t.schema = some sh) (hS : SiteOf env sh k.S) (hC : CachingOf sh C) (hW : Writable env)
    (hap : NotEntries env k.S C) (hsane : Spec.Sane env (livesAll l) w)
    (hok : PiecesOk k.S [] l) (hraw : t.raw = printPieces l) (hb : c!"{:" <:+: printPieces l)
    (hs : t.schema = .obj s) (hd : Obj.get? c!"data" s = some (.obj d))
    (hinh : Obj.get? c!"inherit" s = some (.obj defs)) (hdefs : Defs k.S defs)
    (hmax : (piecesMean env k.S C [] l (startMem d defs) w).2.1.bifs ≤ sh.max)
    (known : Chunk → Prop) (kinds : Kind → Prop) (hf : Faithful env C known kinds)
    (hin : ∀ e i o body, known (.cached e i o body) → ∀ x ∈ body, known x) (hist : Served env C known kinds w0 w)
    (h0 : ∀ text expires, w0.fs (entryFile env C.dir C.pre text expires) = none)
    (hk : kinds k) (hl : ∀ x ∈ l, known x) (hst : k.SteadyAll [] l) (hkd : k.data (startMem d defs).data) (hkf : k.defs defs)
    (hcache : ¬ c!"{:!cache;" <:+: trim (k.showsAll [] l)) :
    ∃ t', t.render env n w = .ok t' ∧ t'.out = replacements (trim (k.showsAll [] l)) ∧ Served env C known kinds w0 t'.shared.w := by
  obtain ⟨h1, h2, h3⟩ := C121_invisible env C known kinds hf hin w0 w hist h0 k hk l hl hst (startMem d defs) hkd hkf
  obtain ⟨r, t', rfl, g1, g2, g3, g4⟩ := C118_render env n w t k.S C l sh s d defs hnew hS hC hW hap hsane hok hraw hb hs hd hinh hdefs hmax
    (by rw [h1]; exact hcache)
  refine ⟨t', g1, by rw [g2.out, h1], ?_⟩
  rw [g4]
  exact .ask k l (startMem d defs) hist hk hl hst hkd hkf

/-- **C121 (the same request).** In particular, for requests of one site with the same data and the same definitions, when the templates leave them as they are: the
cache is invisible if parts that share an entry have the same parts in them. -/
theorem C121_same (env : Env) (C : Caching) (known : Chunk → Prop) (hsep : Separate env C known) (S : Site) (data defs : Obj) (w0 w : World)
    (h : Served env C known (· = kindOf S data defs) w0 w) (h0 : ∀ text expires, w0.fs (entryFile env C.dir C.pre text expires) = none)
    (l : List Chunk) (hl : ∀ x ∈ l, known x) (hs : (kindOf S data defs).SteadyAll [] l) (m : Mem) (hd : m.data = data) (hdf : m.defs = defs) :
    (piecesMean env S C [] l m w).1 = (kindOf S data defs).showsAll [] l := by
  refine (C121_invisible env C known (· = kindOf S data defs) ?_ hsep.inner w0 w h h0 (kindOf S data defs) rfl l hl hs m hd hdf).1
  rintro e i o body e' i' o' body' h1 h2 k k' data data' rfl rfl _ _ hfile
  rw [hsep.entries _ _ _ _ _ _ _ _ h1 h2 _ _ _ _ hfile]

end Nts
