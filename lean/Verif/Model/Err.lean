/-!
# Failure values of the model
-/
namespace Verif

/-- What a model function reports when the Rust function would not return normally.  -/
inductive Err where
  /-- the Rust code panics here (failed assert, `unwrap` of `None`, index out of range) -/
  | panic
  /-- a loop was still running when its fuel was used up (fuel is only ever used for loops the
  Rust code bounds by data; theorems show that this value is not returned) -/
  | diverge
  /-- the Rust function returns `Err(LinestringError::InvalidData(..))` -/
  | invalid
  /-- the Rust function returns `Err(LinestringError::InternalError(..))` -/
  | internal
deriving DecidableEq, Repr

end Verif
