import Verif.Model.Mnemonic

/-! # Histories of requests for word lists -/

namespace Bitcoinx.Spec

/-- A request for a word list, with the contents of the files at its time. -/
inductive ListRequest
  | electrum (files : Str → Res Str)
  | bip39 (files : Str → Res Str) (filename : Str)

/-- What a request returns, and the cache that it leaves. -/
def ListRequest.run (U : PyUni) (cache : WordlistCache) : ListRequest → Res (List Str) × WordlistCache
  | .electrum files => Wordlists.original_electrum_wordlist U files cache
  | .bip39 files filename => Wordlists.bip39_wordlist U files cache filename

/-- The file that it asks for. -/
def ListRequest.filename : ListRequest → Str
  | .electrum _ => "electrum_old.txt".toList
  | .bip39 _ filename => filename

/-- The files at its time. -/
def ListRequest.files : ListRequest → Str → Res Str
  | .electrum files => files
  | .bip39 files _ => files

/-- The cache after requests, the first of which found it empty. -/
inductive Cached (U : PyUni) : List ListRequest → WordlistCache → Prop
  | start : Cached U [] (fun _ => none)
  | step (past : List ListRequest) (cache : WordlistCache) (r : ListRequest) :
    Cached U past cache → Cached U (past ++ [r]) (r.run U cache).2

end Bitcoinx.Spec
