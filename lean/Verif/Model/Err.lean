/-! # Exceptions (/repo/diffsync/exceptions.py and the built-in exceptions the code raises) -/

namespace DS

/-- Exceptions as values.  `crud*` are the `ObjectCrudException` family
(/repo/diffsync/exceptions.py:26-39), `objectNotFound`/`objectAlreadyExists`/`objectStoreWrongType` the
`ObjectStoreException` family (exceptions.py:42-63), `diffClassMismatch` exceptions.py:70-71; the rest are
Python built-ins raised by the code or by pydantic; `user n` is any other exception raised by user
code.  Simplification: messages are dropped. -/
inductive Err where
  | crudBase | objectNotCreated | objectNotUpdated | objectNotDeleted
  | objectNotFound | objectAlreadyExists | objectStoreWrongType
  | diffClassMismatch
  | typeError | valueError | attributeError | keyError | validationError | runtimeError
  | recursionError
  | user (n : Nat)
  deriving DecidableEq, Repr

/-- `isinstance(exc, ObjectCrudException)` (/repo/diffsync/exceptions.py:26-39, used by
/repo/diffsync/helpers.py:448). -/
def Err.isCrud : Err → Bool
  | .crudBase | .objectNotCreated | .objectNotUpdated | .objectNotDeleted => true
  | _ => false

end DS
