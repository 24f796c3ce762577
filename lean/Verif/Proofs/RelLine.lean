import Verif.Proofs.RelLineOps
import Verif.Proofs.RelLineProject
import Verif.Proofs.RelLineAggregate
import Verif.Proofs.RelLineVirtual
/-!
# Every supported relation line reads back
-/

namespace Verif
open StoreSpec TextSpec RelSpec

set_option autoImplicit false

theorem lineRT [UTab] [FTab] (hA : AsciiPrintable) {env : Env} (hst : env.st.Ordered) (ho : Readable env.o)
    {ws : List Nat} {op : RelOp} (hl : Arity op ws.length) (h : OpOk env ws op) : LineRT env ws op := by
  cases op with
  | read c s f t a r =>
    cases t with
    | named names k => exact lineRT_named hst ho hl h
    | «virtual» rows k => exact lineRT_virtual hA hst ho hl h
    | extension d => exact lineRT_readExt hst ho hl h
    | other => exact (h.2.2.2.1 : False).elim
  | filter => exact lineRT_filter hA hst ho hl h
  | project => exact lineRT_project hA hst ho hl h
  | aggregate => exact lineRT_aggregate hA hst ho hl h
  | sort => exact lineRT_sort hA hst ho hl h
  | fetch => exact lineRT_fetch hA hst ho hl h
  | join => exact lineRT_join hA hst ho hl h
  | set => exact lineRT_set hA hst ho hl h
  | cross => exact lineRT_cross hA hst ho hl h
  | ext k c d =>
    refine lineRT_ext hA hst ho ?_ h
    cases k <;> simp_all [Arity, ExtKind.arityOk]
  | other => exact (hl : False).elim

end Verif
