import Verif.Py.Basic

/-! # `hashlib` -/

namespace Warcio

/-- `hashlib.new(name)` (utils.py:100): the hash function of that name, `none` if the name is
unknown (`ValueError`).  Hashes of variable length (`shake_128`) are excluded: their
`digest()` needs an argument and raises. -/
class Hashlib where
  hash : Str → Option (Bytes → Bytes)

end Warcio
