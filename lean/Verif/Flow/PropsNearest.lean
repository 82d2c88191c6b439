import Verif.Flow.PropsRetrieve

/-!
# C111 is false: the greatest distance is recorded, not the nearest
-/

set_option linter.unusedSectionVars false

namespace Verif.Flow
open Verif.Py Verif.Vocab Verif.Corpus Verif.Window Verif.Engine Verif.Matrix

/-- The token 1 of a file with the lines 1, 2, 2. -/
def tokTwice : Token (Unit × Nat) := ⟨((), 1), 1, [], [(((), 2), 2), (((), 2), 3)]⟩

theorem run_twice : RetrieveRun fmt 2 2 Vocab.empty [1] [((), [1, 2, 2])] (endState tokTwice) := by
  refine ⟨1, oneRun, by intro i; simp [oneRun], rfl, ⟨rfl, ?_⟩, rfl, ?_⟩
  · intro w hw
    simp only [endState, List.mem_singleton] at hw
    exact Or.inl ⟨_, hw⟩
  · intro i hi
    have : i = 0 := by omega
    subst this
    decide +kernel

/-- **C111 is false**: in a file with the lines 1, 2, 2 the collocate 2 stands next to the token 1, at distance 1, and a
complete run of retrieval without deaths records the distance 2. -/
theorem C111_false : RetrieveRun fmt 2 2 Vocab.empty [1] [((), [1, 2, 2])] (endState tokTwice) ∧
    (∃ F xs i x, IsOcc fmt [1] [((), [1, 2, 2])] F xs i x ∧ lineName F.1 x.1 x.2 = 101 ∧
      InWindow 2 2 (collocsOf fmt xs) i 2 1) ∧
    ∃ m, retrieve fmt lineName id 1 (endState tokTwice) = some (.ok m) ∧ storedEntry m 101 2 = some 2 := by
  refine ⟨run_twice, ⟨((), [1, 2, 2]), [(1, 1), (2, 2), (2, 3)], 0, (1, 1), ⟨by simp, by decide +kernel, rfl, by decide⟩, rfl,
    ⟨1, rfl, by omega, by omega, by omega, by norm_num⟩⟩,
    ⟨.sp ⟨.csr, 1, 1, [((0, 0), 2)]⟩, [101], [2]⟩, rfl, by decide +kernel⟩

end Verif.Flow
