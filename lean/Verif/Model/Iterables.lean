import Verif.Model.Protocols

/-! # Iterators constructed by hand -/

namespace Verif

/-- What is yielded by `ExtensionIterable::new(buf)` (`src/ipv6.rs:34-38`, with the generated iterator
of `derive/src/gen.rs:654-684`), each packet as the bytes it wraps. Every item takes at least one byte,
so `buf.length` steps are enough (`C12`). -/
def extensionIterable (m : Mode) (buf : Buf) : Res (List Buf) := extension.codec.items m buf.length buf

/-- `size_hint` of every generated iterator (`derive/src/gen.rs:679-681`): lower bound and, if there is
one, upper bound. -/
def iterableSizeHint (_buf : Buf) : Nat × Option Nat := (0, none)

end Verif
