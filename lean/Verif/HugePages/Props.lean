import Verif.HugePages.Deduce
import Verif.HugePages.Dynamic
import Verif.HugePages.Effect
import Verif.HugePages.Combine
import Verif.HugePages.Complete

/-! # Huge pages and combined mappings

The property theorems stand at the end of the imported files: `deduce_relabels` and `deduce_order` in
`Deduce`, `deduce_dynamic` in `Dynamic`, `deduce_fills` in `Effect`, `combine_keeps_partial`, `combine_offset_violated`,
`combine_buildId_violated`, `combine_moment_partial` and `combine_moment_violated` in `Combine`,
`combine_complete` in `Complete`. What they speak about is defined in `Spec`. -/
