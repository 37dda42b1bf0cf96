import Verif.Spec.IntelHex

/- Vocabulary on the size of the output. -/

namespace C8S.Spec

/-- The number of records of a list of ranges: one for every 16 bytes of a range, or part of them. -/
def recordCount (ranges : List DataRange) : Nat := (ranges.map fun r => (r.data.length + 15) / 16).sum

end C8S.Spec
