import Verif.Model.Jail
/-! `minijail_get_original_path`. -/
set_option autoImplicit false
namespace Minijail

/-- `path_join`, util.c:488-494, on byte strings; running out of memory is left out. 47 is '/'. -/
def joinPath (externalPath internalPath : BStr) : BStr := externalPath ++ 47#8 :: internalPath

/-- The loop over the mounts and what follows, libminijail.c:971-1005. `strncmp` with the length of `dest` tests for a prefix. -/
def originalFrom (chrootdir : Option BStr) (path : BStr) : List Mountpoint → BStr
  | [] => match chrootdir with
    | some c => joinPath c path
    | none => path
  | m :: ms =>
    if m.dest = path then m.src
    else if m.dest.isPrefixOf path then joinPath m.src (path.drop m.dest.length)
    else originalFrom chrootdir path ms

/-- `minijail_get_original_path`, libminijail.c:966-1006. -/
def getOriginalPath (j : Jail) (path : BStr) : BStr := originalFrom j.chrootdir path j.mounts

end Minijail
