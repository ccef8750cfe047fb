import Verif.Model.Prog
/-
Frame lemmas for the state functions.
-/
set_option autoImplicit false
namespace Nts

/-- `create_block_schema` changes nothing but the block table. -/
theorem createBlockSchema_sh (sh : Shared) (inh : Inherit) :
    ∃ f, (createBlockSchema sh inh).1 = { sh with indir := f } := by
  unfold createBlockSchema
  dsimp only
  split
  · split
    · split
      · exact ⟨_, rfl⟩
      · exact ⟨sh.indir, rfl⟩
    · exact ⟨sh.indir, rfl⟩
  · split
    · split
      · exact ⟨_, rfl⟩
      · exact ⟨sh.indir, rfl⟩
    · exact ⟨sh.indir, rfl⟩

theorem updateIndir_sh (sh : Shared) (a b : Str) : ∃ f, updateIndir sh a b = { sh with indir := f } := by
  unfold updateIndir
  split
  · exact ⟨_, rfl⟩
  · exact ⟨sh.indir, rfl⟩

theorem dropBlock_sh (sh : Shared) (inh : Inherit) : ∃ f, dropBlock sh inh = { sh with indir := f } := by
  unfold dropBlock
  dsimp only
  split
  · exact ⟨_, rfl⟩
  · exact ⟨sh.indir, rfl⟩

/-- `create_block_schema` changes nothing of the inherit but the block name. -/
theorem createBlockSchema_inh (sh : Shared) (inh : Inherit) :
    (createBlockSchema sh inh).2 =
      { inh with indir := if inh.blockCount < 1 then c!"block_1" else blockId inh.blockCount } := rfl

theorem modIndir_sh {sh sh' : Shared} {k : Str} {f : Value → Option Value} (h : sh.modIndir k f = some sh') :
    ∃ g, sh' = { sh with indir := g } := by
  unfold Shared.modIndir at h
  obtain ⟨v, _, rfl⟩ := Option.map_eq_some_iff.1 h
  exact ⟨_, rfl⟩

end Nts
