import Verif.Model.EigA

/-!
# The rounds of the loops over the columns of a polarised layer

src/xrtm_eig_util.c:493-511 and src/xrtm_eig_util_a.c:216-222 look at the imaginary part of the eigenvalue,
src/xrtm_eig_util.c:815-868 and src/xrtm_eig_util_a.c:452-478 at that of its root.
-/

namespace Xrtm.EigA

variable {n : Nat}

/-- The rounds for the columns `l`; `s` are the imaginary parts the loop looks at. The outcome is `none` if column `i + 1` is not
there. A column with a negative one is left to the round before. -/
noncomputable def rounds (s : Fin n → ℝ) : List (Fin n) → Option (List (Cols n))
  | [] => some []
  | i :: l =>
    match rounds s l with
    | none => none
    | some r =>
      if s i = 0 then some (.one i :: r)
      else if 0 < s i then
        if h : i.1 + 1 < n then some (.two i ⟨i.1 + 1, h⟩ :: r) else none
      else some r

end Xrtm.EigA
