/-! Python exceptions as values, shared by the models of the file-handling code. -/
namespace Mass

/-- The kind of exception raised (only the class is modelled, not the message). Python's exception classes; no particular line. -/
inductive Exc
  | value | key | index | type | attribute | assertion | os | eof | unbound | zeroDiv | exception | struct
  deriving DecidableEq, Repr

deriving instance DecidableEq for Except

end Mass
