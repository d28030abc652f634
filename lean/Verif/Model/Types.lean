import Verif.Model.Ops

/-!
# The integer type names (`core/src/types.rs`)
-/

namespace Verif

/-- Rust's own unsigned integer types of up to 64 bits: name and width. -/
def builtinTypes : List (String × Nat) := [("u8", 8), ("u16", 16), ("u32", 32), ("u64", 64)]

/-- The aliases of `core/src/types.rs` (`pub type <name> = u<width>;`), in order. -/
def typeAliases : List (String × Nat) := [
  ("u1", 8), ("u2", 8), ("u3", 8), ("u4", 8), ("u5", 8), ("u6", 8), ("u7", 8), ("u9be", 16),
  ("u10be", 16), ("u11be", 16), ("u12be", 16), ("u13be", 16), ("u14be", 16), ("u15be", 16),
  ("u16be", 16), ("u17be", 32), ("u18be", 32), ("u19be", 32), ("u20be", 32), ("u21be", 32),
  ("u22be", 32), ("u23be", 32), ("u24be", 32), ("u25be", 32), ("u26be", 32), ("u27be", 32),
  ("u28be", 32), ("u29be", 32), ("u30be", 32), ("u31be", 32), ("u32be", 32), ("u33be", 64),
  ("u34be", 64), ("u35be", 64), ("u36be", 64), ("u37be", 64), ("u38be", 64), ("u39be", 64),
  ("u40be", 64), ("u41be", 64), ("u42be", 64), ("u43be", 64), ("u44be", 64), ("u45be", 64),
  ("u46be", 64), ("u47be", 64), ("u48be", 64), ("u49be", 64), ("u50be", 64), ("u51be", 64),
  ("u52be", 64), ("u53be", 64), ("u54be", 64), ("u55be", 64), ("u56be", 64), ("u57be", 64),
  ("u58be", 64), ("u59be", 64), ("u60be", 64), ("u61be", 64), ("u62be", 64), ("u63be", 64),
  ("u64be", 64), ("u9le", 16), ("u10le", 16), ("u11le", 16), ("u12le", 16), ("u13le", 16),
  ("u14le", 16), ("u15le", 16), ("u16le", 16), ("u17le", 32), ("u18le", 32), ("u19le", 32),
  ("u20le", 32), ("u21le", 32), ("u22le", 32), ("u23le", 32), ("u24le", 32), ("u25le", 32),
  ("u26le", 32), ("u27le", 32), ("u28le", 32), ("u29le", 32), ("u30le", 32), ("u31le", 32),
  ("u32le", 32), ("u33le", 64), ("u34le", 64), ("u35le", 64), ("u36le", 64), ("u37le", 64),
  ("u38le", 64), ("u39le", 64), ("u40le", 64), ("u41le", 64), ("u42le", 64), ("u43le", 64),
  ("u44le", 64), ("u45le", 64), ("u46le", 64), ("u47le", 64), ("u48le", 64), ("u49le", 64),
  ("u50le", 64), ("u51le", 64), ("u52le", 64), ("u53le", 64), ("u54le", 64), ("u55le", 64),
  ("u56le", 64), ("u57le", 64), ("u58le", 64), ("u59le", 64), ("u60le", 64), ("u61le", 64),
  ("u62le", 64), ("u63le", 64), ("u64le", 64), ("u9he", 16), ("u10he", 16), ("u11he", 16),
  ("u12he", 16), ("u13he", 16), ("u14he", 16), ("u15he", 16), ("u16he", 16), ("u17he", 32),
  ("u18he", 32), ("u19he", 32), ("u20he", 32), ("u21he", 32), ("u22he", 32), ("u23he", 32),
  ("u24he", 32), ("u25he", 32), ("u26he", 32), ("u27he", 32), ("u28he", 32), ("u29he", 32),
  ("u30he", 32), ("u31he", 32), ("u32he", 32), ("u33he", 64), ("u34he", 64), ("u35he", 64),
  ("u36he", 64), ("u37he", 64), ("u38he", 64), ("u39he", 64), ("u40he", 64), ("u41he", 64),
  ("u42he", 64), ("u43he", 64), ("u44he", 64), ("u45he", 64), ("u46he", 64), ("u47he", 64),
  ("u48he", 64), ("u49he", 64), ("u50he", 64), ("u51he", 64), ("u52he", 64), ("u53he", 64),
  ("u54he", 64), ("u55he", 64), ("u56he", 64), ("u57he", 64), ("u58he", 64), ("u59he", 64),
  ("u60he", 64), ("u61he", 64), ("u62he", 64), ("u63he", 64), ("u64he", 64)]

end Verif
