/-!
# Path strings

Models the parts of python's `os.path` used by pyMARS (`posixpath`), on lists of
characters.  Only POSIX separators are modelled.
-/
namespace Verif

/-- Characters of a string; all path functions work on these. -/
abbrev Text := List Char

/-- `os.path.splitext`, used at `reduce_model.py:83`, `tools.py:169-228`,
`soln2ck.py:236-425`, `pymars.py:293-407`.
The extension starts at the last dot of the last path component, unless every character
before that dot in the component is itself a dot. -/
def splitext (p : Text) : Text × Text :=
  let r := p.reverse
  let e := r.takeWhile (fun c => c != '.' && c != '/')
  match r.dropWhile (fun c => c != '.' && c != '/') with
  | '.' :: rest =>
      if (rest.takeWhile (fun c => c != '/')).any (fun c => c != '.') then
        (rest.reverse, '.' :: e.reverse)
      else (p, [])
  | _ => (p, [])

/-- `os.path.basename`: the part after the last `/`. -/
def basename (p : Text) : Text := (p.reverse.takeWhile (fun c => c != '/')).reverse

/-- `os.path.join(path, name)` for two arguments (`soln2yaml.py:34-37`). -/
def joinPath (path name : Text) : Text :=
  if name.head? = some '/' then name
  else if path = [] then name
  else if path.getLast? = some '/' then path ++ name
  else path ++ '/' :: name

end Verif
