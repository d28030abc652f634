import Verif.Model.Sources

/-! # Specification: attributes added to and removed from fields -/

namespace Verif.Spec

/-- The field without its `#[payload]`. -/
def noPayload (f : RawField) : RawField := { f with attrs := f.attrs.filter (· ≠ Source.payload) }

/-- The field with one more attribute. -/
def withAttr (a : Meta) (f : RawField) : RawField := { f with attrs := a :: f.attrs }

end Verif.Spec
