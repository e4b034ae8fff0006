import Verif.Model.Chain

/-! # Two `Headers` objects on one file

A mapping made by `map_file`, bitcoinx/util.py:31-40, is shared: what one object writes into its mapping is in the file
and is seen by every object that has mapped the same file, in this process or another.  A mapping keeps its length when
the file is enlarged by somebody else. -/

namespace Bitcoinx

/-- The object, whose own fields are as before, after others have made `file` the content of the file: its mapping, which
was made by `_open_file` or `_set_raw_header`, bitcoinx/chain.py:205 and 240, shows the beginning of it.
Simplification: a file that has become shorter than the mapping (which makes an access beyond its end fail) is not modelled;
the library never shortens a file that is in use. -/
def Headers.see (s : Headers) (file : Bytes) : Headers :=
  { s with storage := { s.storage with file := file.take s.storage.file.length } }

end Bitcoinx
