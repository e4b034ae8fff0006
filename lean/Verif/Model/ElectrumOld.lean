import Verif.Model.Base

/-! # The word list of bitcoinx/data/electrum_old.txt -/

namespace Bitcoinx

/-- `Wordlists.original_electrum_wordlist()`, bitcoinx/mnemonic.py:88-90: the words in
bitcoinx/data/electrum_old.txt:3-1628.  `C86_shipped` and `C109_electrum` are about reading the file and
caching the list. -/
def original_electrum_wordlist : List Str := [
  ['l','i','k','e'], ['j','u','s','t'], ['l','o','v','e'], ['k','n','o','w'], ['n','e','v','e','r'],
  ['w','a','n','t'], ['t','i','m','e'], ['o','u','t'], ['t','h','e','r','e'], ['m','a','k','e'], ['l','o','o','k'],
  ['e','y','e'], ['d','o','w','n'], ['o','n','l','y'], ['t','h','i','n','k'], ['h','e','a','r','t'],
  ['b','a','c','k'], ['t','h','e','n'], ['i','n','t','o'], ['a','b','o','u','t'], ['m','o','r','e'],
  ['a','w','a','y'], ['s','t','i','l','l'], ['t','h','e','m'], ['t','a','k','e'], ['t','h','i','n','g'],
  ['e','v','e','n'], ['t','h','r','o','u','g','h'], ['l','o','n','g'], ['a','l','w','a','y','s'],
  ['w','o','r','l','d'], ['t','o','o'], ['f','r','i','e','n','d'], ['t','e','l','l'], ['t','r','y'],
  ['h','a','n','d'], ['t','h','o','u','g','h','t'], ['o','v','e','r'], ['h','e','r','e'], ['o','t','h','e','r'],
  ['n','e','e','d'], ['s','m','i','l','e'], ['a','g','a','i','n'], ['m','u','c','h'], ['c','r','y'],
  ['b','e','e','n'], ['n','i','g','h','t'], ['e','v','e','r'], ['l','i','t','t','l','e'], ['s','a','i','d'],
  ['e','n','d'], ['s','o','m','e'], ['t','h','o','s','e'], ['a','r','o','u','n','d'], ['m','i','n','d'],
  ['p','e','o','p','l','e'], ['g','i','r','l'], ['l','e','a','v','e'], ['d','r','e','a','m'], ['l','e','f','t'],
  ['t','u','r','n'], ['m','y','s','e','l','f'], ['g','i','v','e'], ['n','o','t','h','i','n','g'],
  ['r','e','a','l','l','y'], ['o','f','f'], ['b','e','f','o','r','e'], ['s','o','m','e','t','h','i','n','g'],
  ['f','i','n','d'], ['w','a','l','k'], ['w','i','s','h'], ['g','o','o','d'], ['o','n','c','e'],
  ['p','l','a','c','e'], ['a','s','k'], ['s','t','o','p'], ['k','e','e','p'], ['w','a','t','c','h'],
  ['s','e','e','m'], ['e','v','e','r','y','t','h','i','n','g'], ['w','a','i','t'], ['g','o','t'], ['y','e','t'],
  ['m','a','d','e'], ['r','e','m','e','m','b','e','r'], ['s','t','a','r','t'], ['a','l','o','n','e'], ['r','u','n'],
  ['h','o','p','e'], ['m','a','y','b','e'], ['b','e','l','i','e','v','e'], ['b','o','d','y'], ['h','a','t','e'],
  ['a','f','t','e','r'], ['c','l','o','s','e'], ['t','a','l','k'], ['s','t','a','n','d'], ['o','w','n'],
  ['e','a','c','h'], ['h','u','r','t'], ['h','e','l','p'], ['h','o','m','e'], ['g','o','d'], ['s','o','u','l'],
  ['n','e','w'], ['m','a','n','y'], ['t','w','o'], ['i','n','s','i','d','e'], ['s','h','o','u','l','d'],
  ['t','r','u','e'], ['f','i','r','s','t'], ['f','e','a','r'], ['m','e','a','n'], ['b','e','t','t','e','r'],
  ['p','l','a','y'], ['a','n','o','t','h','e','r'], ['g','o','n','e'], ['c','h','a','n','g','e'], ['u','s','e'],
  ['w','o','n','d','e','r'], ['s','o','m','e','o','n','e'], ['h','a','i','r'], ['c','o','l','d'], ['o','p','e','n'],
  ['b','e','s','t'], ['a','n','y'], ['b','e','h','i','n','d'], ['h','a','p','p','e','n'], ['w','a','t','e','r'],
  ['d','a','r','k'], ['l','a','u','g','h'], ['s','t','a','y'], ['f','o','r','e','v','e','r'], ['n','a','m','e'],
  ['w','o','r','k'], ['s','h','o','w'], ['s','k','y'], ['b','r','e','a','k'], ['c','a','m','e'], ['d','e','e','p'],
  ['d','o','o','r'], ['p','u','t'], ['b','l','a','c','k'], ['t','o','g','e','t','h','e','r'], ['u','p','o','n'],
  ['h','a','p','p','y'], ['s','u','c','h'], ['g','r','e','a','t'], ['w','h','i','t','e'], ['m','a','t','t','e','r'],
  ['f','i','l','l'], ['p','a','s','t'], ['p','l','e','a','s','e'], ['b','u','r','n'], ['c','a','u','s','e'],
  ['e','n','o','u','g','h'], ['t','o','u','c','h'], ['m','o','m','e','n','t'], ['s','o','o','n'],
  ['v','o','i','c','e'], ['s','c','r','e','a','m'], ['a','n','y','t','h','i','n','g'], ['s','t','a','r','e'],
  ['s','o','u','n','d'], ['r','e','d'], ['e','v','e','r','y','o','n','e'], ['h','i','d','e'], ['k','i','s','s'],
  ['t','r','u','t','h'], ['d','e','a','t','h'], ['b','e','a','u','t','i','f','u','l'], ['m','i','n','e'],
  ['b','l','o','o','d'], ['b','r','o','k','e','n'], ['v','e','r','y'], ['p','a','s','s'], ['n','e','x','t'],
  ['f','o','r','g','e','t'], ['t','r','e','e'], ['w','r','o','n','g'], ['a','i','r'], ['m','o','t','h','e','r'],
  ['u','n','d','e','r','s','t','a','n','d'], ['l','i','p'], ['h','i','t'], ['w','a','l','l'],
  ['m','e','m','o','r','y'], ['s','l','e','e','p'], ['f','r','e','e'], ['h','i','g','h'],
  ['r','e','a','l','i','z','e'], ['s','c','h','o','o','l'], ['m','i','g','h','t'], ['s','k','i','n'],
  ['s','w','e','e','t'], ['p','e','r','f','e','c','t'], ['b','l','u','e'], ['k','i','l','l'],
  ['b','r','e','a','t','h'], ['d','a','n','c','e'], ['a','g','a','i','n','s','t'], ['f','l','y'],
  ['b','e','t','w','e','e','n'], ['g','r','o','w'], ['s','t','r','o','n','g'], ['u','n','d','e','r'],
  ['l','i','s','t','e','n'], ['b','r','i','n','g'], ['s','o','m','e','t','i','m','e','s'], ['s','p','e','a','k'],
  ['p','u','l','l'], ['p','e','r','s','o','n'], ['b','e','c','o','m','e'], ['f','a','m','i','l','y'],
  ['b','e','g','i','n'], ['g','r','o','u','n','d'], ['r','e','a','l'], ['s','m','a','l','l'],
  ['f','a','t','h','e','r'], ['s','u','r','e'], ['f','e','e','t'], ['r','e','s','t'], ['y','o','u','n','g'],
  ['f','i','n','a','l','l','y'], ['l','a','n','d'], ['a','c','r','o','s','s'], ['t','o','d','a','y'],
  ['d','i','f','f','e','r','e','n','t'], ['g','u','y'], ['l','i','n','e'], ['f','i','r','e'],
  ['r','e','a','s','o','n'], ['r','e','a','c','h'], ['s','e','c','o','n','d'], ['s','l','o','w','l','y'],
  ['w','r','i','t','e'], ['e','a','t'], ['s','m','e','l','l'], ['m','o','u','t','h'], ['s','t','e','p'],
  ['l','e','a','r','n'], ['t','h','r','e','e'], ['f','l','o','o','r'], ['p','r','o','m','i','s','e'],
  ['b','r','e','a','t','h','e'], ['d','a','r','k','n','e','s','s'], ['p','u','s','h'], ['e','a','r','t','h'],
  ['g','u','e','s','s'], ['s','a','v','e'], ['s','o','n','g'], ['a','b','o','v','e'], ['a','l','o','n','g'],
  ['b','o','t','h'], ['c','o','l','o','r'], ['h','o','u','s','e'], ['a','l','m','o','s','t'], ['s','o','r','r','y'],
  ['a','n','y','m','o','r','e'], ['b','r','o','t','h','e','r'], ['o','k','a','y'], ['d','e','a','r'],
  ['g','a','m','e'], ['f','a','d','e'], ['a','l','r','e','a','d','y'], ['a','p','a','r','t'], ['w','a','r','m'],
  ['b','e','a','u','t','y'], ['h','e','a','r','d'], ['n','o','t','i','c','e'], ['q','u','e','s','t','i','o','n'],
  ['s','h','i','n','e'], ['b','e','g','a','n'], ['p','i','e','c','e'], ['w','h','o','l','e'],
  ['s','h','a','d','o','w'], ['s','e','c','r','e','t'], ['s','t','r','e','e','t'], ['w','i','t','h','i','n'],
  ['f','i','n','g','e','r'], ['p','o','i','n','t'], ['m','o','r','n','i','n','g'], ['w','h','i','s','p','e','r'],
  ['c','h','i','l','d'], ['m','o','o','n'], ['g','r','e','e','n'], ['s','t','o','r','y'], ['g','l','a','s','s'],
  ['k','i','d'], ['s','i','l','e','n','c','e'], ['s','i','n','c','e'], ['s','o','f','t'],
  ['y','o','u','r','s','e','l','f'], ['e','m','p','t','y'], ['s','h','a','l','l'], ['a','n','g','e','l'],
  ['a','n','s','w','e','r'], ['b','a','b','y'], ['b','r','i','g','h','t'], ['d','a','d'], ['p','a','t','h'],
  ['w','o','r','r','y'], ['h','o','u','r'], ['d','r','o','p'], ['f','o','l','l','o','w'], ['p','o','w','e','r'],
  ['w','a','r'], ['h','a','l','f'], ['f','l','o','w'], ['h','e','a','v','e','n'], ['a','c','t'],
  ['c','h','a','n','c','e'], ['f','a','c','t'], ['l','e','a','s','t'], ['t','i','r','e','d'],
  ['c','h','i','l','d','r','e','n'], ['n','e','a','r'], ['q','u','i','t','e'], ['a','f','r','a','i','d'],
  ['r','i','s','e'], ['s','e','a'], ['t','a','s','t','e'], ['w','i','n','d','o','w'], ['c','o','v','e','r'],
  ['n','i','c','e'], ['t','r','u','s','t'], ['l','o','t'], ['s','a','d'], ['c','o','o','l'], ['f','o','r','c','e'],
  ['p','e','a','c','e'], ['r','e','t','u','r','n'], ['b','l','i','n','d'], ['e','a','s','y'], ['r','e','a','d','y'],
  ['r','o','l','l'], ['r','o','s','e'], ['d','r','i','v','e'], ['h','e','l','d'], ['m','u','s','i','c'],
  ['b','e','n','e','a','t','h'], ['h','a','n','g'], ['m','o','m'], ['p','a','i','n','t'],
  ['e','m','o','t','i','o','n'], ['q','u','i','e','t'], ['c','l','e','a','r'], ['c','l','o','u','d'], ['f','e','w'],
  ['p','r','e','t','t','y'], ['b','i','r','d'], ['o','u','t','s','i','d','e'], ['p','a','p','e','r'],
  ['p','i','c','t','u','r','e'], ['f','r','o','n','t'], ['r','o','c','k'], ['s','i','m','p','l','e'],
  ['a','n','y','o','n','e'], ['m','e','a','n','t'], ['r','e','a','l','i','t','y'], ['r','o','a','d'],
  ['s','e','n','s','e'], ['w','a','s','t','e'], ['b','i','t'], ['l','e','a','f'], ['t','h','a','n','k'],
  ['h','a','p','p','i','n','e','s','s'], ['m','e','e','t'], ['m','e','n'], ['s','m','o','k','e'],
  ['t','r','u','l','y'], ['d','e','c','i','d','e'], ['s','e','l','f'], ['a','g','e'], ['b','o','o','k'],
  ['f','o','r','m'], ['a','l','i','v','e'], ['c','a','r','r','y'], ['e','s','c','a','p','e'], ['d','a','m','n'],
  ['i','n','s','t','e','a','d'], ['a','b','l','e'], ['i','c','e'], ['m','i','n','u','t','e'], ['t','h','r','o','w'],
  ['c','a','t','c','h'], ['l','e','g'], ['r','i','n','g'], ['c','o','u','r','s','e'], ['g','o','o','d','b','y','e'],
  ['l','e','a','d'], ['p','o','e','m'], ['s','i','c','k'], ['c','o','r','n','e','r'], ['d','e','s','i','r','e'],
  ['k','n','o','w','n'], ['p','r','o','b','l','e','m'], ['r','e','m','i','n','d'],
  ['s','h','o','u','l','d','e','r'], ['s','u','p','p','o','s','e'], ['t','o','w','a','r','d'], ['w','a','v','e'],
  ['d','r','i','n','k'], ['j','u','m','p'], ['w','o','m','a','n'], ['p','r','e','t','e','n','d'],
  ['s','i','s','t','e','r'], ['w','e','e','k'], ['h','u','m','a','n'], ['j','o','y'], ['c','r','a','c','k'],
  ['g','r','e','y'], ['p','r','a','y'], ['s','u','r','p','r','i','s','e'], ['d','r','y'], ['k','n','e','e'],
  ['l','e','s','s'], ['s','e','a','r','c','h'], ['b','l','e','e','d'], ['c','a','u','g','h','t'],
  ['c','l','e','a','n'], ['e','m','b','r','a','c','e'], ['f','u','t','u','r','e'], ['k','i','n','g'], ['s','o','n'],
  ['s','o','r','r','o','w'], ['c','h','e','s','t'], ['h','u','g'], ['r','e','m','a','i','n'], ['s','a','t'],
  ['w','o','r','t','h'], ['b','l','o','w'], ['d','a','d','d','y'], ['f','i','n','a','l'], ['p','a','r','e','n','t'],
  ['t','i','g','h','t'], ['a','l','s','o'], ['c','r','e','a','t','e'], ['l','o','n','e','l','y'], ['s','a','f','e'],
  ['c','r','o','s','s'], ['d','r','e','s','s'], ['e','v','i','l'], ['s','i','l','e','n','t'], ['b','o','n','e'],
  ['f','a','t','e'], ['p','e','r','h','a','p','s'], ['a','n','g','e','r'], ['c','l','a','s','s'], ['s','c','a','r'],
  ['s','n','o','w'], ['t','i','n','y'], ['t','o','n','i','g','h','t'], ['c','o','n','t','i','n','u','e'],
  ['c','o','n','t','r','o','l'], ['d','o','g'], ['e','d','g','e'], ['m','i','r','r','o','r'], ['m','o','n','t','h'],
  ['s','u','d','d','e','n','l','y'], ['c','o','m','f','o','r','t'], ['g','i','v','e','n'], ['l','o','u','d'],
  ['q','u','i','c','k','l','y'], ['g','a','z','e'], ['p','l','a','n'], ['r','u','s','h'], ['s','t','o','n','e'],
  ['t','o','w','n'], ['b','a','t','t','l','e'], ['i','g','n','o','r','e'], ['s','p','i','r','i','t'],
  ['s','t','o','o','d'], ['s','t','u','p','i','d'], ['y','o','u','r','s'], ['b','r','o','w','n'],
  ['b','u','i','l','d'], ['d','u','s','t'], ['h','e','y'], ['k','e','p','t'], ['p','a','y'], ['p','h','o','n','e'],
  ['t','w','i','s','t'], ['a','l','t','h','o','u','g','h'], ['b','a','l','l'], ['b','e','y','o','n','d'],
  ['h','i','d','d','e','n'], ['n','o','s','e'], ['t','a','k','e','n'], ['f','a','i','l'], ['f','l','o','a','t'],
  ['p','u','r','e'], ['s','o','m','e','h','o','w'], ['w','a','s','h'], ['w','r','a','p'], ['a','n','g','r','y'],
  ['c','h','e','e','k'], ['c','r','e','a','t','u','r','e'], ['f','o','r','g','o','t','t','e','n'],
  ['h','e','a','t'], ['r','i','p'], ['s','i','n','g','l','e'], ['s','p','a','c','e'], ['s','p','e','c','i','a','l'],
  ['w','e','a','k'], ['w','h','a','t','e','v','e','r'], ['y','e','l','l'], ['a','n','y','w','a','y'],
  ['b','l','a','m','e'], ['j','o','b'], ['c','h','o','o','s','e'], ['c','o','u','n','t','r','y'],
  ['c','u','r','s','e'], ['d','r','i','f','t'], ['e','c','h','o'], ['f','i','g','u','r','e'], ['g','r','e','w'],
  ['l','a','u','g','h','t','e','r'], ['n','e','c','k'], ['s','u','f','f','e','r'], ['w','o','r','s','e'],
  ['y','e','a','h'], ['d','i','s','a','p','p','e','a','r'], ['f','o','o','t'], ['f','o','r','w','a','r','d'],
  ['k','n','i','f','e'], ['m','e','s','s'], ['s','o','m','e','w','h','e','r','e'], ['s','t','o','m','a','c','h'],
  ['s','t','o','r','m'], ['b','e','g'], ['i','d','e','a'], ['l','i','f','t'], ['o','f','f','e','r'],
  ['b','r','e','e','z','e'], ['f','i','e','l','d'], ['f','i','v','e'], ['o','f','t','e','n'],
  ['s','i','m','p','l','y'], ['s','t','u','c','k'], ['w','i','n'], ['a','l','l','o','w'],
  ['c','o','n','f','u','s','e'], ['e','n','j','o','y'], ['e','x','c','e','p','t'], ['f','l','o','w','e','r'],
  ['s','e','e','k'], ['s','t','r','e','n','g','t','h'], ['c','a','l','m'], ['g','r','i','n'], ['g','u','n'],
  ['h','e','a','v','y'], ['h','i','l','l'], ['l','a','r','g','e'], ['o','c','e','a','n'], ['s','h','o','e'],
  ['s','i','g','h'], ['s','t','r','a','i','g','h','t'], ['s','u','m','m','e','r'], ['t','o','n','g','u','e'],
  ['a','c','c','e','p','t'], ['c','r','a','z','y'], ['e','v','e','r','y','d','a','y'], ['e','x','i','s','t'],
  ['g','r','a','s','s'], ['m','i','s','t','a','k','e'], ['s','e','n','t'], ['s','h','u','t'],
  ['s','u','r','r','o','u','n','d'], ['t','a','b','l','e'], ['a','c','h','e'], ['b','r','a','i','n'],
  ['d','e','s','t','r','o','y'], ['h','e','a','l'], ['n','a','t','u','r','e'], ['s','h','o','u','t'],
  ['s','i','g','n'], ['s','t','a','i','n'], ['c','h','o','i','c','e'], ['d','o','u','b','t'],
  ['g','l','a','n','c','e'], ['g','l','o','w'], ['m','o','u','n','t','a','i','n'], ['q','u','e','e','n'],
  ['s','t','r','a','n','g','e','r'], ['t','h','r','o','a','t'], ['t','o','m','o','r','r','o','w'],
  ['c','i','t','y'], ['e','i','t','h','e','r'], ['f','i','s','h'], ['f','l','a','m','e'], ['r','a','t','h','e','r'],
  ['s','h','a','p','e'], ['s','p','i','n'], ['s','p','r','e','a','d'], ['a','s','h'],
  ['d','i','s','t','a','n','c','e'], ['f','i','n','i','s','h'], ['i','m','a','g','e'],
  ['i','m','a','g','i','n','e'], ['i','m','p','o','r','t','a','n','t'], ['n','o','b','o','d','y'],
  ['s','h','a','t','t','e','r'], ['w','a','r','m','t','h'], ['b','e','c','a','m','e'], ['f','e','e','d'],
  ['f','l','e','s','h'], ['f','u','n','n','y'], ['l','u','s','t'], ['s','h','i','r','t'],
  ['t','r','o','u','b','l','e'], ['y','e','l','l','o','w'], ['a','t','t','e','n','t','i','o','n'],
  ['b','a','r','e'], ['b','i','t','e'], ['m','o','n','e','y'], ['p','r','o','t','e','c','t'], ['a','m','a','z','e'],
  ['a','p','p','e','a','r'], ['b','o','r','n'], ['c','h','o','k','e'], ['c','o','m','p','l','e','t','e','l','y'],
  ['d','a','u','g','h','t','e','r'], ['f','r','e','s','h'], ['f','r','i','e','n','d','s','h','i','p'],
  ['g','e','n','t','l','e'], ['p','r','o','b','a','b','l','y'], ['s','i','x'], ['d','e','s','e','r','v','e'],
  ['e','x','p','e','c','t'], ['g','r','a','b'], ['m','i','d','d','l','e'], ['n','i','g','h','t','m','a','r','e'],
  ['r','i','v','e','r'], ['t','h','o','u','s','a','n','d'], ['w','e','i','g','h','t'], ['w','o','r','s','t'],
  ['w','o','u','n','d'], ['b','a','r','e','l','y'], ['b','o','t','t','l','e'], ['c','r','e','a','m'],
  ['r','e','g','r','e','t'], ['r','e','l','a','t','i','o','n','s','h','i','p'], ['s','t','i','c','k'],
  ['t','e','s','t'], ['c','r','u','s','h'], ['e','n','d','l','e','s','s'], ['f','a','u','l','t'],
  ['i','t','s','e','l','f'], ['r','u','l','e'], ['s','p','i','l','l'], ['a','r','t'], ['c','i','r','c','l','e'],
  ['j','o','i','n'], ['k','i','c','k'], ['m','a','s','k'], ['m','a','s','t','e','r'], ['p','a','s','s','i','o','n'],
  ['q','u','i','c','k'], ['r','a','i','s','e'], ['s','m','o','o','t','h'], ['u','n','l','e','s','s'],
  ['w','a','n','d','e','r'], ['a','c','t','u','a','l','l','y'], ['b','r','o','k','e'], ['c','h','a','i','r'],
  ['d','e','a','l'], ['f','a','v','o','r','i','t','e'], ['g','i','f','t'], ['n','o','t','e'],
  ['n','u','m','b','e','r'], ['s','w','e','a','t'], ['b','o','x'], ['c','h','i','l','l'],
  ['c','l','o','t','h','e','s'], ['l','a','d','y'], ['m','a','r','k'], ['p','a','r','k'], ['p','o','o','r'],
  ['s','a','d','n','e','s','s'], ['t','i','e'], ['a','n','i','m','a','l'], ['b','e','l','o','n','g'],
  ['b','r','u','s','h'], ['c','o','n','s','u','m','e'], ['d','a','w','n'], ['f','o','r','e','s','t'],
  ['i','n','n','o','c','e','n','t'], ['p','e','n'], ['p','r','i','d','e'], ['s','t','r','e','a','m'],
  ['t','h','i','c','k'], ['c','l','a','y'], ['c','o','m','p','l','e','t','e'], ['c','o','u','n','t'],
  ['d','r','a','w'], ['f','a','i','t','h'], ['p','r','e','s','s'], ['s','i','l','v','e','r'],
  ['s','t','r','u','g','g','l','e'], ['s','u','r','f','a','c','e'], ['t','a','u','g','h','t'],
  ['t','e','a','c','h'], ['w','e','t'], ['b','l','e','s','s'], ['c','h','a','s','e'], ['c','l','i','m','b'],
  ['e','n','t','e','r'], ['l','e','t','t','e','r'], ['m','e','l','t'], ['m','e','t','a','l'], ['m','o','v','i','e'],
  ['s','t','r','e','t','c','h'], ['s','w','i','n','g'], ['v','i','s','i','o','n'], ['w','i','f','e'],
  ['b','e','s','i','d','e'], ['c','r','a','s','h'], ['f','o','r','g','o','t'], ['g','u','i','d','e'],
  ['h','a','u','n','t'], ['j','o','k','e'], ['k','n','o','c','k'], ['p','l','a','n','t'], ['p','o','u','r'],
  ['p','r','o','v','e'], ['r','e','v','e','a','l'], ['s','t','e','a','l'], ['s','t','u','f','f'], ['t','r','i','p'],
  ['w','o','o','d'], ['w','r','i','s','t'], ['b','o','t','h','e','r'], ['b','o','t','t','o','m'],
  ['c','r','a','w','l'], ['c','r','o','w','d'], ['f','i','x'], ['f','o','r','g','i','v','e'], ['f','r','o','w','n'],
  ['g','r','a','c','e'], ['l','o','o','s','e'], ['l','u','c','k','y'], ['p','a','r','t','y'],
  ['r','e','l','e','a','s','e'], ['s','u','r','e','l','y'], ['s','u','r','v','i','v','e'],
  ['t','e','a','c','h','e','r'], ['g','e','n','t','l','y'], ['g','r','i','p'], ['s','p','e','e','d'],
  ['s','u','i','c','i','d','e'], ['t','r','a','v','e','l'], ['t','r','e','a','t'], ['v','e','i','n'],
  ['w','r','i','t','t','e','n'], ['c','a','g','e'], ['c','h','a','i','n'],
  ['c','o','n','v','e','r','s','a','t','i','o','n'], ['d','a','t','e'], ['e','n','e','m','y'],
  ['h','o','w','e','v','e','r'], ['i','n','t','e','r','e','s','t'], ['m','i','l','l','i','o','n'],
  ['p','a','g','e'], ['p','i','n','k'], ['p','r','o','u','d'], ['s','w','a','y'],
  ['t','h','e','m','s','e','l','v','e','s'], ['w','i','n','t','e','r'], ['c','h','u','r','c','h'],
  ['c','r','u','e','l'], ['c','u','p'], ['d','e','m','o','n'], ['e','x','p','e','r','i','e','n','c','e'],
  ['f','r','e','e','d','o','m'], ['p','a','i','r'], ['p','o','p'], ['p','u','r','p','o','s','e'],
  ['r','e','s','p','e','c','t'], ['s','h','o','o','t'], ['s','o','f','t','l','y'], ['s','t','a','t','e'],
  ['s','t','r','a','n','g','e'], ['b','a','r'], ['b','i','r','t','h'], ['c','u','r','l'], ['d','i','r','t'],
  ['e','x','c','u','s','e'], ['l','o','r','d'], ['l','o','v','e','l','y'], ['m','o','n','s','t','e','r'],
  ['o','r','d','e','r'], ['p','a','c','k'], ['p','a','n','t','s'], ['p','o','o','l'], ['s','c','e','n','e'],
  ['s','e','v','e','n'], ['s','h','a','m','e'], ['s','l','i','d','e'], ['u','g','l','y'], ['a','m','o','n','g'],
  ['b','l','a','d','e'], ['b','l','o','n','d','e'], ['c','l','o','s','e','t'], ['c','r','e','e','k'],
  ['d','e','n','y'], ['d','r','u','g'], ['e','t','e','r','n','i','t','y'], ['g','a','i','n'], ['g','r','a','d','e'],
  ['h','a','n','d','l','e'], ['k','e','y'], ['l','i','n','g','e','r'], ['p','a','l','e'],
  ['p','r','e','p','a','r','e'], ['s','w','a','l','l','o','w'], ['s','w','i','m'], ['t','r','e','m','b','l','e'],
  ['w','h','e','e','l'], ['w','o','n'], ['c','a','s','t'], ['c','i','g','a','r','e','t','t','e'],
  ['c','l','a','i','m'], ['c','o','l','l','e','g','e'], ['d','i','r','e','c','t','i','o','n'],
  ['d','i','r','t','y'], ['g','a','t','h','e','r'], ['g','h','o','s','t'], ['h','u','n','d','r','e','d'],
  ['l','o','s','s'], ['l','u','n','g'], ['o','r','a','n','g','e'], ['p','r','e','s','e','n','t'],
  ['s','w','e','a','r'], ['s','w','i','r','l'], ['t','w','i','c','e'], ['w','i','l','d'], ['b','i','t','t','e','r'],
  ['b','l','a','n','k','e','t'], ['d','o','c','t','o','r'], ['e','v','e','r','y','w','h','e','r','e'],
  ['f','l','a','s','h'], ['g','r','o','w','n'], ['k','n','o','w','l','e','d','g','e'], ['n','u','m','b'],
  ['p','r','e','s','s','u','r','e'], ['r','a','d','i','o'], ['r','e','p','e','a','t'], ['r','u','i','n'],
  ['s','p','e','n','d'], ['u','n','k','n','o','w','n'], ['b','u','y'], ['c','l','o','c','k'], ['d','e','v','i','l'],
  ['e','a','r','l','y'], ['f','a','l','s','e'], ['f','a','n','t','a','s','y'], ['p','o','u','n','d'],
  ['p','r','e','c','i','o','u','s'], ['r','e','f','u','s','e'], ['s','h','e','e','t'], ['t','e','e','t','h'],
  ['w','e','l','c','o','m','e'], ['a','d','d'], ['a','h','e','a','d'], ['b','l','o','c','k'], ['b','u','r','y'],
  ['c','a','r','e','s','s'], ['c','o','n','t','e','n','t'], ['d','e','p','t','h'], ['d','e','s','p','i','t','e'],
  ['d','i','s','t','a','n','t'], ['m','a','r','r','y'], ['p','u','r','p','l','e'], ['t','h','r','e','w'],
  ['w','h','e','n','e','v','e','r'], ['b','o','m','b'], ['d','u','l','l'], ['e','a','s','i','l','y'],
  ['g','r','a','s','p'], ['h','o','s','p','i','t','a','l'], ['i','n','n','o','c','e','n','c','e'],
  ['n','o','r','m','a','l'], ['r','e','c','e','i','v','e'], ['r','e','p','l','y'], ['r','h','y','m','e'],
  ['s','h','a','d','e'], ['s','o','m','e','d','a','y'], ['s','w','o','r','d'], ['t','o','e'], ['v','i','s','i','t'],
  ['a','s','l','e','e','p'], ['b','o','u','g','h','t'], ['c','e','n','t','e','r'],
  ['c','o','n','s','i','d','e','r'], ['f','l','a','t'], ['h','e','r','o'], ['h','i','s','t','o','r','y'],
  ['i','n','k'], ['i','n','s','a','n','e'], ['m','u','s','c','l','e'], ['m','y','s','t','e','r','y'],
  ['p','o','c','k','e','t'], ['r','e','f','l','e','c','t','i','o','n'], ['s','h','o','v','e'],
  ['s','i','l','e','n','t','l','y'], ['s','m','a','r','t'], ['s','o','l','d','i','e','r'], ['s','p','o','t'],
  ['s','t','r','e','s','s'], ['t','r','a','i','n'], ['t','y','p','e'], ['v','i','e','w'],
  ['w','h','e','t','h','e','r'], ['b','u','s'], ['e','n','e','r','g','y'], ['e','x','p','l','a','i','n'],
  ['h','o','l','y'], ['h','u','n','g','e','r'], ['i','n','c','h'], ['m','a','g','i','c'], ['m','i','x'],
  ['n','o','i','s','e'], ['n','o','w','h','e','r','e'], ['p','r','a','y','e','r'],
  ['p','r','e','s','e','n','c','e'], ['s','h','o','c','k'], ['s','n','a','p'], ['s','p','i','d','e','r'],
  ['s','t','u','d','y'], ['t','h','u','n','d','e','r'], ['t','r','a','i','l'], ['a','d','m','i','t'],
  ['a','g','r','e','e'], ['b','a','g'], ['b','a','n','g'], ['b','o','u','n','d'],
  ['b','u','t','t','e','r','f','l','y'], ['c','u','t','e'], ['e','x','a','c','t','l','y'],
  ['e','x','p','l','o','d','e'], ['f','a','m','i','l','i','a','r'], ['f','o','l','d'],
  ['f','u','r','t','h','e','r'], ['p','i','e','r','c','e'], ['r','e','f','l','e','c','t'], ['s','c','e','n','t'],
  ['s','e','l','f','i','s','h'], ['s','h','a','r','p'], ['s','i','n','k'], ['s','p','r','i','n','g'],
  ['s','t','u','m','b','l','e'], ['u','n','i','v','e','r','s','e'], ['w','e','e','p'], ['w','o','m','e','n'],
  ['w','o','n','d','e','r','f','u','l'], ['a','c','t','i','o','n'], ['a','n','c','i','e','n','t'],
  ['a','t','t','e','m','p','t'], ['a','v','o','i','d'], ['b','i','r','t','h','d','a','y'],
  ['b','r','a','n','c','h'], ['c','h','o','c','o','l','a','t','e'], ['c','o','r','e'],
  ['d','e','p','r','e','s','s'], ['d','r','u','n','k'], ['e','s','p','e','c','i','a','l','l','y'],
  ['f','o','c','u','s'], ['f','r','u','i','t'], ['h','o','n','e','s','t'], ['m','a','t','c','h'], ['p','a','l','m'],
  ['p','e','r','f','e','c','t','l','y'], ['p','i','l','l','o','w'], ['p','i','t','y'], ['p','o','i','s','o','n'],
  ['r','o','a','r'], ['s','h','i','f','t'], ['s','l','i','g','h','t','l','y'], ['t','h','u','m','p'],
  ['t','r','u','c','k'], ['t','u','n','e'], ['t','w','e','n','t','y'], ['u','n','a','b','l','e'], ['w','i','p','e'],
  ['w','r','o','t','e'], ['c','o','a','t'], ['c','o','n','s','t','a','n','t'], ['d','i','n','n','e','r'],
  ['d','r','o','v','e'], ['e','g','g'], ['e','t','e','r','n','a','l'], ['f','l','i','g','h','t'],
  ['f','l','o','o','d'], ['f','r','a','m','e'], ['f','r','e','a','k'], ['g','a','s','p'], ['g','l','a','d'],
  ['h','o','l','l','o','w'], ['m','o','t','i','o','n'], ['p','e','e','r'], ['p','l','a','s','t','i','c'],
  ['r','o','o','t'], ['s','c','r','e','e','n'], ['s','e','a','s','o','n'], ['s','t','i','n','g'],
  ['s','t','r','i','k','e'], ['t','e','a','m'], ['u','n','l','i','k','e'], ['v','i','c','t','i','m'],
  ['v','o','l','u','m','e'], ['w','a','r','n'], ['w','e','i','r','d'], ['a','t','t','a','c','k'],
  ['a','w','a','i','t'], ['a','w','a','k','e'], ['b','u','i','l','t'], ['c','h','a','r','m'], ['c','r','a','v','e'],
  ['d','e','s','p','a','i','r'], ['f','o','u','g','h','t'], ['g','r','a','n','t'], ['g','r','i','e','f'],
  ['h','o','r','s','e'], ['l','i','m','i','t'], ['m','e','s','s','a','g','e'], ['r','i','p','p','l','e'],
  ['s','a','n','i','t','y'], ['s','c','a','t','t','e','r'], ['s','e','r','v','e'], ['s','p','l','i','t'],
  ['s','t','r','i','n','g'], ['t','r','i','c','k'], ['a','n','n','o','y'], ['b','l','u','r'], ['b','o','a','t'],
  ['b','r','a','v','e'], ['c','l','e','a','r','l','y'], ['c','l','i','n','g'], ['c','o','n','n','e','c','t'],
  ['f','i','s','t'], ['f','o','r','t','h'], ['i','m','a','g','i','n','a','t','i','o','n'], ['i','r','o','n'],
  ['j','o','c','k'], ['j','u','d','g','e'], ['l','e','s','s','o','n'], ['m','i','l','k'], ['m','i','s','e','r','y'],
  ['n','a','i','l'], ['n','a','k','e','d'], ['o','u','r','s','e','l','v','e','s'], ['p','o','e','t'],
  ['p','o','s','s','i','b','l','e'], ['p','r','i','n','c','e','s','s'], ['s','a','i','l'], ['s','i','z','e'],
  ['s','n','a','k','e'], ['s','o','c','i','e','t','y'], ['s','t','r','o','k','e'], ['t','o','r','t','u','r','e'],
  ['t','o','s','s'], ['t','r','a','c','e'], ['w','i','s','e'], ['b','l','o','o','m'], ['b','u','l','l','e','t'],
  ['c','e','l','l'], ['c','h','e','c','k'], ['c','o','s','t'], ['d','a','r','l','i','n','g'],
  ['d','u','r','i','n','g'], ['f','o','o','t','s','t','e','p'], ['f','r','a','g','i','l','e'],
  ['h','a','l','l','w','a','y'], ['h','a','r','d','l','y'], ['h','o','r','i','z','o','n'],
  ['i','n','v','i','s','i','b','l','e'], ['j','o','u','r','n','e','y'], ['m','i','d','n','i','g','h','t'],
  ['m','u','d'], ['n','o','d'], ['p','a','u','s','e'], ['r','e','l','a','x'], ['s','h','i','v','e','r'],
  ['s','u','d','d','e','n'], ['v','a','l','u','e'], ['y','o','u','t','h'], ['a','b','u','s','e'],
  ['a','d','m','i','r','e'], ['b','l','i','n','k'], ['b','r','e','a','s','t'], ['b','r','u','i','s','e'],
  ['c','o','n','s','t','a','n','t','l','y'], ['c','o','u','p','l','e'], ['c','r','e','e','p'],
  ['c','u','r','v','e'], ['d','i','f','f','e','r','e','n','c','e'], ['d','u','m','b'],
  ['e','m','p','t','i','n','e','s','s'], ['g','o','t','t','a'], ['h','o','n','o','r'], ['p','l','a','i','n'],
  ['p','l','a','n','e','t'], ['r','e','c','a','l','l'], ['r','u','b'], ['s','h','i','p'], ['s','l','a','m'],
  ['s','o','a','r'], ['s','o','m','e','b','o','d','y'], ['t','i','g','h','t','l','y'],
  ['w','e','a','t','h','e','r'], ['a','d','o','r','e'], ['a','p','p','r','o','a','c','h'], ['b','o','n','d'],
  ['b','r','e','a','d'], ['b','u','r','s','t'], ['c','a','n','d','l','e'], ['c','o','f','f','e','e'],
  ['c','o','u','s','i','n'], ['c','r','i','m','e'], ['d','e','s','e','r','t'], ['f','l','u','t','t','e','r'],
  ['f','r','o','z','e','n'], ['g','r','a','n','d'], ['h','e','e','l'], ['h','e','l','l','o'],
  ['l','a','n','g','u','a','g','e'], ['l','e','v','e','l'], ['m','o','v','e','m','e','n','t'],
  ['p','l','e','a','s','u','r','e'], ['p','o','w','e','r','f','u','l'], ['r','a','n','d','o','m'],
  ['r','h','y','t','h','m'], ['s','e','t','t','l','e'], ['s','i','l','l','y'], ['s','l','a','p'], ['s','o','r','t'],
  ['s','p','o','k','e','n'], ['s','t','e','e','l'], ['t','h','r','e','a','t','e','n'], ['t','u','m','b','l','e'],
  ['u','p','s','e','t'], ['a','s','i','d','e'], ['a','w','k','w','a','r','d'], ['b','e','e'], ['b','l','a','n','k'],
  ['b','o','a','r','d'], ['b','u','t','t','o','n'], ['c','a','r','d'], ['c','a','r','e','f','u','l','l','y'],
  ['c','o','m','p','l','a','i','n'], ['c','r','a','p'], ['d','e','e','p','l','y'],
  ['d','i','s','c','o','v','e','r'], ['d','r','a','g'], ['d','r','e','a','d'], ['e','f','f','o','r','t'],
  ['e','n','t','i','r','e'], ['f','a','i','r','y'], ['g','i','a','n','t'], ['g','o','t','t','e','n'],
  ['g','r','e','e','t'], ['i','l','l','u','s','i','o','n'], ['j','e','a','n','s'], ['l','e','a','p'],
  ['l','i','q','u','i','d'], ['m','a','r','c','h'], ['m','e','n','d'], ['n','e','r','v','o','u','s'],
  ['n','i','n','e'], ['r','e','p','l','a','c','e'], ['r','o','p','e'], ['s','p','i','n','e'], ['s','t','o','l','e'],
  ['t','e','r','r','o','r'], ['a','c','c','i','d','e','n','t'], ['a','p','p','l','e'],
  ['b','a','l','a','n','c','e'], ['b','o','o','m'], ['c','h','i','l','d','h','o','o','d'],
  ['c','o','l','l','e','c','t'], ['d','e','m','a','n','d'], ['d','e','p','r','e','s','s','i','o','n'],
  ['e','v','e','n','t','u','a','l','l','y'], ['f','a','i','n','t'], ['g','l','a','r','e'], ['g','o','a','l'],
  ['g','r','o','u','p'], ['h','o','n','e','y'], ['k','i','t','c','h','e','n'], ['l','a','i','d'], ['l','i','m','b'],
  ['m','a','c','h','i','n','e'], ['m','e','r','e'], ['m','o','l','d'], ['m','u','r','d','e','r'],
  ['n','e','r','v','e'], ['p','a','i','n','f','u','l'], ['p','o','e','t','r','y'], ['p','r','i','n','c','e'],
  ['r','a','b','b','i','t'], ['s','h','e','l','t','e','r'], ['s','h','o','r','e'], ['s','h','o','w','e','r'],
  ['s','o','o','t','h','e'], ['s','t','a','i','r'], ['s','t','e','a','d','y'], ['s','u','n','l','i','g','h','t'],
  ['t','a','n','g','l','e'], ['t','e','a','s','e'], ['t','r','e','a','s','u','r','e'], ['u','n','c','l','e'],
  ['b','e','g','u','n'], ['b','l','i','s','s'], ['c','a','n','v','a','s'], ['c','h','e','e','r'], ['c','l','a','w'],
  ['c','l','u','t','c','h'], ['c','o','m','m','i','t'], ['c','r','i','m','s','o','n'],
  ['c','r','y','s','t','a','l'], ['d','e','l','i','g','h','t'], ['d','o','l','l'],
  ['e','x','i','s','t','e','n','c','e'], ['e','x','p','r','e','s','s'], ['f','o','g'],
  ['f','o','o','t','b','a','l','l'], ['g','a','y'], ['g','o','o','s','e'], ['g','u','a','r','d'],
  ['h','a','t','r','e','d'], ['i','l','l','u','m','i','n','a','t','e'], ['m','a','s','s'], ['m','a','t','h'],
  ['m','o','u','r','n'], ['r','i','c','h'], ['r','o','u','g','h'], ['s','k','i','p'], ['s','t','i','r'],
  ['s','t','u','d','e','n','t'], ['s','t','y','l','e'], ['s','u','p','p','o','r','t'], ['t','h','o','r','n'],
  ['t','o','u','g','h'], ['y','a','r','d'], ['y','e','a','r','n'], ['y','e','s','t','e','r','d','a','y'],
  ['a','d','v','i','c','e'], ['a','p','p','r','e','c','i','a','t','e'], ['a','u','t','u','m','n'],
  ['b','a','n','k'], ['b','e','a','m'], ['b','o','w','l'], ['c','a','p','t','u','r','e'], ['c','a','r','v','e'],
  ['c','o','l','l','a','p','s','e'], ['c','o','n','f','u','s','i','o','n'], ['c','r','e','a','t','i','o','n'],
  ['d','o','v','e'], ['f','e','a','t','h','e','r'], ['g','i','r','l','f','r','i','e','n','d'],
  ['g','l','o','r','y'], ['g','o','v','e','r','n','m','e','n','t'], ['h','a','r','s','h'], ['h','o','p'],
  ['i','n','n','e','r'], ['l','o','s','e','r'], ['m','o','o','n','l','i','g','h','t'],
  ['n','e','i','g','h','b','o','r'], ['n','e','i','t','h','e','r'], ['p','e','a','c','h'], ['p','i','g'],
  ['p','r','a','i','s','e'], ['s','c','r','e','w'], ['s','h','i','e','l','d'], ['s','h','i','m','m','e','r'],
  ['s','n','e','a','k'], ['s','t','a','b'], ['s','u','b','j','e','c','t'],
  ['t','h','r','o','u','g','h','o','u','t'], ['t','h','r','o','w','n'], ['t','o','w','e','r'],
  ['t','w','i','r','l'], ['w','o','w'], ['a','r','m','y'], ['a','r','r','i','v','e'],
  ['b','a','t','h','r','o','o','m'], ['b','u','m','p'], ['c','e','a','s','e'], ['c','o','o','k','i','e'],
  ['c','o','u','c','h'], ['c','o','u','r','a','g','e'], ['d','i','m'], ['g','u','i','l','t'], ['h','o','w','l'],
  ['h','u','m'], ['h','u','s','b','a','n','d'], ['i','n','s','u','l','t'], ['l','e','d'], ['l','u','n','c','h'],
  ['m','o','c','k'], ['m','o','s','t','l','y'], ['n','a','t','u','r','a','l'], ['n','e','a','r','l','y'],
  ['n','e','e','d','l','e'], ['n','e','r','d'], ['p','e','a','c','e','f','u','l'],
  ['p','e','r','f','e','c','t','i','o','n'], ['p','i','l','e'], ['p','r','i','c','e'], ['r','e','m','o','v','e'],
  ['r','o','a','m'], ['s','a','n','c','t','u','a','r','y'], ['s','e','r','i','o','u','s'], ['s','h','i','n','y'],
  ['s','h','o','o','k'], ['s','o','b'], ['s','t','o','l','e','n'], ['t','a','p'], ['v','a','i','n'],
  ['v','o','i','d'], ['w','a','r','r','i','o','r'], ['w','r','i','n','k','l','e'],
  ['a','f','f','e','c','t','i','o','n'], ['a','p','o','l','o','g','i','z','e'], ['b','l','o','s','s','o','m'],
  ['b','o','u','n','c','e'], ['b','r','i','d','g','e'], ['c','h','e','a','p'], ['c','r','u','m','b','l','e'],
  ['d','e','c','i','s','i','o','n'], ['d','e','s','c','e','n','d'], ['d','e','s','p','e','r','a','t','e','l','y'],
  ['d','i','g'], ['d','o','t'], ['f','l','i','p'], ['f','r','i','g','h','t','e','n'],
  ['h','e','a','r','t','b','e','a','t'], ['h','u','g','e'], ['l','a','z','y'], ['l','i','c','k'], ['o','d','d'],
  ['o','p','i','n','i','o','n'], ['p','r','o','c','e','s','s'], ['p','u','z','z','l','e'],
  ['q','u','i','e','t','l','y'], ['r','e','t','r','e','a','t'], ['s','c','o','r','e'],
  ['s','e','n','t','e','n','c','e'], ['s','e','p','a','r','a','t','e'], ['s','i','t','u','a','t','i','o','n'],
  ['s','k','i','l','l'], ['s','o','a','k'], ['s','q','u','a','r','e'], ['s','t','r','a','y'], ['t','a','i','n','t'],
  ['t','a','s','k'], ['t','i','d','e'], ['u','n','d','e','r','n','e','a','t','h'], ['v','e','i','l'],
  ['w','h','i','s','t','l','e'], ['a','n','y','w','h','e','r','e'], ['b','e','d','r','o','o','m'], ['b','i','d'],
  ['b','l','o','o','d','y'], ['b','u','r','d','e','n'], ['c','a','r','e','f','u','l'],
  ['c','o','m','p','a','r','e'], ['c','o','n','c','e','r','n'], ['c','u','r','t','a','i','n'],
  ['d','e','c','a','y'], ['d','e','f','e','a','t'], ['d','e','s','c','r','i','b','e'], ['d','o','u','b','l','e'],
  ['d','r','e','a','m','e','r'], ['d','r','i','v','e','r'], ['d','w','e','l','l'], ['e','v','e','n','i','n','g'],
  ['f','l','a','r','e'], ['f','l','i','c','k','e','r'], ['g','r','a','n','d','m','a'], ['g','u','i','t','a','r'],
  ['h','a','r','m'], ['h','o','r','r','i','b','l','e'], ['h','u','n','g','r','y'], ['i','n','d','e','e','d'],
  ['l','a','c','e'], ['m','e','l','o','d','y'], ['m','o','n','k','e','y'], ['n','a','t','i','o','n'],
  ['o','b','j','e','c','t'], ['o','b','v','i','o','u','s','l','y'], ['r','a','i','n','b','o','w'],
  ['s','a','l','t'], ['s','c','r','a','t','c','h'], ['s','h','o','w','n'], ['s','h','y'], ['s','t','a','g','e'],
  ['s','t','u','n'], ['t','h','i','r','d'], ['t','i','c','k','l','e'], ['u','s','e','l','e','s','s'],
  ['w','e','a','k','n','e','s','s'], ['w','o','r','s','h','i','p'], ['w','o','r','t','h','l','e','s','s'],
  ['a','f','t','e','r','n','o','o','n'], ['b','e','a','r','d'], ['b','o','y','f','r','i','e','n','d'],
  ['b','u','b','b','l','e'], ['b','u','s','y'], ['c','e','r','t','a','i','n'], ['c','h','i','n'],
  ['c','o','n','c','r','e','t','e'], ['d','e','s','k'], ['d','i','a','m','o','n','d'], ['d','o','o','m'],
  ['d','r','a','w','n'], ['d','u','e'], ['f','e','l','i','c','i','t','y'], ['f','r','e','e','z','e'],
  ['f','r','o','s','t'], ['g','a','r','d','e','n'], ['g','l','i','d','e'], ['h','a','r','m','o','n','y'],
  ['h','o','p','e','f','u','l','l','y'], ['h','u','n','t'], ['j','e','a','l','o','u','s'],
  ['l','i','g','h','t','n','i','n','g'], ['m','a','m','a'], ['m','e','r','c','y'], ['p','e','e','l'],
  ['p','h','y','s','i','c','a','l'], ['p','o','s','i','t','i','o','n'], ['p','u','l','s','e'],
  ['p','u','n','c','h'], ['q','u','i','t'], ['r','a','n','t'], ['r','e','s','p','o','n','d'], ['s','a','l','t','y'],
  ['s','a','n','e'], ['s','a','t','i','s','f','y'], ['s','a','v','i','o','r'], ['s','h','e','e','p'],
  ['s','l','e','p','t'], ['s','o','c','i','a','l'], ['s','p','o','r','t'], ['t','u','c','k'], ['u','t','t','e','r'],
  ['v','a','l','l','e','y'], ['w','o','l','f'], ['a','i','m'], ['a','l','a','s'], ['a','l','t','e','r'],
  ['a','r','r','o','w'], ['a','w','a','k','e','n'], ['b','e','a','t','e','n'], ['b','e','l','i','e','f'],
  ['b','r','a','n','d'], ['c','e','i','l','i','n','g'], ['c','h','e','e','s','e'], ['c','l','u','e'],
  ['c','o','n','f','i','d','e','n','c','e'], ['c','o','n','n','e','c','t','i','o','n'], ['d','a','i','l','y'],
  ['d','i','s','g','u','i','s','e'], ['e','a','g','e','r'], ['e','r','a','s','e'], ['e','s','s','e','n','c','e'],
  ['e','v','e','r','y','t','i','m','e'], ['e','x','p','r','e','s','s','i','o','n'], ['f','a','n'],
  ['f','l','a','g'], ['f','l','i','r','t'], ['f','o','u','l'], ['f','u','r'], ['g','i','g','g','l','e'],
  ['g','l','o','r','i','o','u','s'], ['i','g','n','o','r','a','n','c','e'], ['l','a','w'],
  ['l','i','f','e','l','e','s','s'], ['m','e','a','s','u','r','e'], ['m','i','g','h','t','y'], ['m','u','s','e'],
  ['n','o','r','t','h'], ['o','p','p','o','s','i','t','e'], ['p','a','r','a','d','i','s','e'],
  ['p','a','t','i','e','n','c','e'], ['p','a','t','i','e','n','t'], ['p','e','n','c','i','l'],
  ['p','e','t','a','l'], ['p','l','a','t','e'], ['p','o','n','d','e','r'], ['p','o','s','s','i','b','l','y'],
  ['p','r','a','c','t','i','c','e'], ['s','l','i','c','e'], ['s','p','e','l','l'], ['s','t','o','c','k'],
  ['s','t','r','i','f','e'], ['s','t','r','i','p'], ['s','u','f','f','o','c','a','t','e'], ['s','u','i','t'],
  ['t','e','n','d','e','r'], ['t','o','o','l'], ['t','r','a','d','e'], ['v','e','l','v','e','t'],
  ['v','e','r','s','e'], ['w','a','i','s','t'], ['w','i','t','c','h'], ['a','u','n','t'], ['b','e','n','c','h'],
  ['b','o','l','d'], ['c','a','p'], ['c','e','r','t','a','i','n','l','y'], ['c','l','i','c','k'],
  ['c','o','m','p','a','n','i','o','n'], ['c','r','e','a','t','o','r'], ['d','a','r','t'],
  ['d','e','l','i','c','a','t','e'], ['d','e','t','e','r','m','i','n','e'], ['d','i','s','h'],
  ['d','r','a','g','o','n'], ['d','r','a','m','a'], ['d','r','u','m'], ['d','u','d','e'],
  ['e','v','e','r','y','b','o','d','y'], ['f','e','a','s','t'], ['f','o','r','e','h','e','a','d'],
  ['f','o','r','m','e','r'], ['f','r','i','g','h','t'], ['f','u','l','l','y'], ['g','a','s'], ['h','o','o','k'],
  ['h','u','r','l'], ['i','n','v','i','t','e'], ['j','u','i','c','e'], ['m','a','n','a','g','e'],
  ['m','o','r','a','l'], ['p','o','s','s','e','s','s'], ['r','a','w'], ['r','e','b','e','l'], ['r','o','y','a','l'],
  ['s','c','a','l','e'], ['s','c','a','r','y'], ['s','e','v','e','r','a','l'], ['s','l','i','g','h','t'],
  ['s','t','u','b','b','o','r','n'], ['s','w','e','l','l'], ['t','a','l','e','n','t'], ['t','e','a'],
  ['t','e','r','r','i','b','l','e'], ['t','h','r','e','a','d'], ['t','o','r','m','e','n','t'],
  ['t','r','i','c','k','l','e'], ['u','s','u','a','l','l','y'], ['v','a','s','t'],
  ['v','i','o','l','e','n','c','e'], ['w','e','a','v','e'], ['a','c','i','d'], ['a','g','o','n','y'],
  ['a','s','h','a','m','e','d'], ['a','w','e'], ['b','e','l','l','y'], ['b','l','e','n','d'], ['b','l','u','s','h'],
  ['c','h','a','r','a','c','t','e','r'], ['c','h','e','a','t'], ['c','o','m','m','o','n'],
  ['c','o','m','p','a','n','y'], ['c','o','w','a','r','d'], ['c','r','e','a','k'], ['d','a','n','g','e','r'],
  ['d','e','a','d','l','y'], ['d','e','f','e','n','s','e'], ['d','e','f','i','n','e'], ['d','e','p','e','n','d'],
  ['d','e','s','p','e','r','a','t','e'], ['d','e','s','t','i','n','a','t','i','o','n'], ['d','e','w'],
  ['d','u','c','k'], ['d','u','s','t','y'], ['e','m','b','a','r','r','a','s','s'], ['e','n','g','i','n','e'],
  ['e','x','a','m','p','l','e'], ['e','x','p','l','o','r','e'], ['f','o','e'], ['f','r','e','e','l','y'],
  ['f','r','u','s','t','r','a','t','e'], ['g','e','n','e','r','a','t','i','o','n'], ['g','l','o','v','e'],
  ['g','u','i','l','t','y'], ['h','e','a','l','t','h'], ['h','u','r','r','y'], ['i','d','i','o','t'],
  ['i','m','p','o','s','s','i','b','l','e'], ['i','n','h','a','l','e'], ['j','a','w'],
  ['k','i','n','g','d','o','m'], ['m','e','n','t','i','o','n'], ['m','i','s','t'], ['m','o','a','n'],
  ['m','u','m','b','l','e'], ['m','u','t','t','e','r'], ['o','b','s','e','r','v','e'], ['o','d','e'],
  ['p','a','t','h','e','t','i','c'], ['p','a','t','t','e','r','n'], ['p','i','e'], ['p','r','e','f','e','r'],
  ['p','u','f','f'], ['r','a','p','e'], ['r','a','r','e'], ['r','e','v','e','n','g','e'], ['r','u','d','e'],
  ['s','c','r','a','p','e'], ['s','p','i','r','a','l'], ['s','q','u','e','e','z','e'], ['s','t','r','a','i','n'],
  ['s','u','n','s','e','t'], ['s','u','s','p','e','n','d'], ['s','y','m','p','a','t','h','y'],
  ['t','h','i','g','h'], ['t','h','r','o','n','e'], ['t','o','t','a','l'], ['u','n','s','e','e','n'],
  ['w','e','a','p','o','n'], ['w','e','a','r','y']]

end Bitcoinx
