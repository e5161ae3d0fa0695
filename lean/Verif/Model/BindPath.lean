import Verif.Model.Path
import Verif.Model.Util
/-! libminijail.c and system.c: which paths may be bind mounted. -/
set_option autoImplicit false
namespace Minijail

/-- `is_canonical_path`, system.c:608-625. `realpath` is what realpath(3) gives; `none` is NULL. -/
def isCanonicalPath (realpath : CStr → Option CStr) (path : CStr) : Bool :=
  match realpath path with
  | none => false
  | some rp =>
    if path = rp then true
    else path.length == rp.length + 1 && path.take rp.length == rp && path[path.length - 1]? == some '/'

/-- The loop over the allowed prefixes, libminijail.c:1143-1148. -/
def underPrefix (path : CStr) : List CStr → Res Bool
  | [] => .ok false
  | p :: ps =>
    match pathIsParent p path with
    | .ok true => .ok true
    | .ok false => underPrefix path ps
    | .fail => .fail
    | .die => .die
    | .ub => .ub

/-- `is_valid_bind_path`, libminijail.c:1124-1159. `blocks` is `block_symlinks_in_bindmount_paths` (util.h:236-243), `prefixes` the build option
BINDMOUNT_ALLOWED_PREFIXES (Makefile:67). -/
def isValidBindPath (blocks : Bool) (prefixes : CStr) (realpath : CStr → Option CStr) (path : CStr) : Res Bool :=
  if !blocks then .ok true
  else if !isCanonicalPath realpath path then underPrefix path (tokenizeAll [','] prefixes)
  else .ok true

end Minijail
