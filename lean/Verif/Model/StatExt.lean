import Verif.Model.Env
/-!
# Generic stats: `Stat::is`, `StatExt::cast`, `StatExt::is_then_cast`  (src/stat.rs)

`Any::downcast_ref`/`downcast_mut` compare `TypeId`s; here stat types and value types are compared.
-/
namespace BSQ
namespace Env
variable (E : Env)

/-- `(x as &dyn Any).downcast_ref::<T>()` on a stat -/
def downcastStat {S : E.S} (T : E.S) (x : E.Sel S) : Option (E.Sel T) :=
  if h : S = T then some (h ▸ x) else none

/-- `(v as &mut dyn Any).downcast_mut::<T>()` on a value -/
def downcastVal {u : E.U} (w : E.U) (v : E.El u) : Option (E.El w) :=
  if h : u = w then some (h ▸ v) else none

/-- `Stat::is` (stat.rs:203-205) -/
def isStat (A : Addr E) {S T : E.S} (x : E.Sel S) (y : E.Sel T) : Bool := (E.asEntry x).eq A (E.asEntry y)

/-- `StatExt::cast` (stat.rs:222-231), with `T` given explicitly -/
def castStat {S : E.S} (T : E.S) (x : E.Sel S) (v : E.El (E.valTy S)) : Option (E.Sel T × E.El (E.valTy T)) :=
  if S = T then do
    let x' ← E.downcastStat T x
    let v' ← E.downcastVal (E.valTy T) v
    some (x', v')
  else none

/-- `StatExt::is_then_cast` (stat.rs:234-243) -/
def isThenCastStat (A : Addr E) {S T : E.S} (x : E.Sel S) (y : E.Sel T) (v : E.El (E.valTy S)) :
    Option (E.El (E.valTy T)) :=
  if !E.isStat A x y then none else E.downcastVal (E.valTy T) v

end Env
end BSQ
