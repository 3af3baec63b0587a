import Verif.Model.Regex

/-!
# Patterns: reading and matching, case by case

The patterns of `test/unit/parser/format_parse_validators_test.cpp` lines 831-930 and 1003-1107, and cases from the grammar of
ECMAScript.
-/

namespace Sharg.Tests

def found (p t : String) : Bool := match readPattern p.toList with
  | .ok r => r.matchAll t.toList
  | .error _ => false

def notFound (p t : String) : Bool := match readPattern p.toList with
  | .ok r => !r.matchAll t.toList
  | .error _ => false

#guard found "tt" "tt"
#guard found "^chr[0-9]+" "chr10"
#guard found ".*oll.*" "rollo"
#guard found "a|b|" ""
#guard found "a|bc" "bc"
#guard found "(ab)*" "abab"
#guard found "(?:ab){2}c?" "abab"
#guard found "a*?b+?" "aab"
#guard found "\\d\\w\\s\\S" "1_ x"
#guard found "[^/]+" "a.b"
#guard found "a$|^b" "b"
#guard found "(^a)+" "a"
#guard found "[[:alpha:]_-]+" "a-_"
#guard found "(/[^/]+)+/.*\\.[^/\\.]+$" "/a/x.f"
#guard notFound "tt" "ttt"
#guard notFound "^chr[0-9]+" "10"
#guard notFound ".*oll.*" "bar"
#guard notFound "a|bc" "ac"
#guard notFound "(ab)*" "aba"
#guard notFound "a{2,3}" "a"
#guard notFound "a{2,3}" "aaaa"
#guard notFound "a^" "a"
#guard notFound "(^a)+" "aa"
#guard notFound "." "\n"
#guard found "[a-zA-Z]+@[a-zA-Z]+\\.com" "rita@rambo.com"
#guard notFound "[0-9]" "jessy"
#guard notFound ".*oll.*" "bttllo"
#guard found ".*" ""
#guard notFound "(/[^/]+)+/.*\\.[^/\\.]+$" "a/x.f"
-- An absolute path of a file in the root directory.
#guard notFound "(/[^/]+)+/.*\\.[^/\\.]+$" "/x.sa"

#guard ["(", "a)", "*", "a**", "a{2", "a{3,2}", "[a", "[b-a]", "a\\", "a|*"].all fun p => readPattern p.toList = .error .malformed
#guard ["\\b", "(a)\\1", "(?=a)", "[[.a.]]", "\\x41", "a]", "[]-]"].all fun p => readPattern p.toList = .error .uncovered

end Sharg.Tests
