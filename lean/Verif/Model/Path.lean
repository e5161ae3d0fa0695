import Verif.Model.Res
import Verif.Model.CString
/-! util.c: paths. -/
set_option autoImplicit false
namespace Minijail

/-- `path_join`, util.c:488-494. -/
def pathJoin (externalPath internalPath : CStr) : CStr := externalPath ++ '/' :: internalPath

/-- `path_is_parent`, util.c:496-510. With an empty `parent` and a non-empty `child`, `parent[parent_len - 1]` is read
in front of the string: `ub`. -/
def pathIsParent (parent child : CStr) : Res Bool :=
  if parent.isPrefixOf child then
    if child.length > parent.length then
      if parent = [] then .ub
      else .ok (parent.getLast? = some '/' || child[parent.length]? = some '/')
    else .ok false
  else .ok false

end Minijail
