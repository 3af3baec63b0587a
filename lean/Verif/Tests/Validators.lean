import Verif.Tests.Parse
import Verif.Model.Messages
import Verif.Model.Regex

/-!
# `test/unit/parser/format_parse_validators_test.cpp`, `test/unit/detail/safe_filesystem_entry_test.cpp` and
`test/unit/std/charconv_int_test.cpp`

Not transcribed: types and concepts, tests with `double`, and the parsing of `std::filesystem::path` (a validator for paths
is called directly).
-/

namespace Sharg.Tests

/-! ### File validators -/

/-- The directory of `tmp_filename`, with further objects in it. -/
def disk (l : List (String × Node)) : Disk :=
  [([], .dir true true true), (strs ["tmp"], .dir true true true), (strs ["tmp", "test"], .dir true true true)]
  ++ l.map fun p => (strs ["tmp", "test", p.1], p.2)

def file : Node := .file [] true true

def arg (name : String) : PathArg := ⟨strs ["tmp", "test", name], name.toList⟩

/-- `/tmp/test/`: the file name of such a path is empty. -/
def dirArg : PathArg := ⟨strs ["tmp", "test"], []⟩

/-- `EXPECT_NO_THROW(validator(path))`. -/
def accepts (v : Validator Disk PathArg) (fs : Disk) (p : PathArg) : Bool :=
  match v.run p fs with
  | .ok _ _ => true
  | _ => false

/-- `EXPECT_THROW(validator(path), sharg::validation_error)`. -/
def rejects (v : Validator Disk PathArg) (fs : Disk) (p : PathArg) : Bool :=
  match v.run p fs with
  | .err .validationError _ => true
  | _ => false

/-- The file system afterwards. -/
def after (v : Validator Disk PathArg) (fs : Disk) (p : PathArg) : Disk := (v.run p fs).state

def inFile (ext : List String) : Validator Disk PathArg := inputFile (strs ext) (inputFileMessage (strs ext))

def outFile (mode : OpenMode) (ext : List String) : Validator Disk PathArg :=
  outputFile false mode (strs ext) (outputFileMessage mode (strs ext))

def formats : List String := ["fa", "sam", "fasta", "fasta.txt"]

-- Test `input_file`.
def inputFiles : Disk :=
  disk [("testbox.fasta", file), ("testbox_2.fasta", file), (".testbox.fasta", file), ("testbox.fasta.txt", file)]

#guard accepts (inFile formats) inputFiles (arg ".testbox.fasta")
#guard accepts (inFile formats) inputFiles (arg "testbox.fasta.txt")
#guard rejects (inFile formats) inputFiles (arg "testbox.bam")
#guard rejects (inFile formats) inputFiles (arg "testbox")
#guard rejects (inFile ["sam"]) inputFiles (arg "testbox.fasta")
#guard accepts (inFile []) inputFiles (arg "testbox.fasta")
#guard accepts (inFile formats) inputFiles (arg "testbox.fasta")
#guard accepts (inFile formats) inputFiles (arg "testbox_2.fasta")
#guard (inFile formats).help = ("The input file must exist and read permissions must be granted. " ++
  "Valid file extensions are: [fa, sam, fasta, fasta.txt].").toList
#guard (inFile []).help = "The input file must exist and read permissions must be granted.".toList

/-- The page of a parser with one positional option of type `path`, with the text of a validator. -/
def pathPage (v : Validator Disk PathArg) : Option Str :=
  cout (pages true {} (types "" [""])) (getParser ["-h"])
    [.addPositionalOption { description := "desc".toList, validatorMessage := v.help } 0 false path anything]
    [.one (.other 0)]

def pathPageExpected (lines : List String) : Option Str :=
  text (["test_parser\n", "===========\n", "\n", "POSITIONAL ARGUMENTS\n",
    "    ARGUMENT-1 (std::filesystem::path)\n"] ++ lines ++ ["\nOPTIONS\n\n"] ++ basicOptions true ++ ["\n"] ++ versionStr)

#guard pathPage (inFile formats) = pathPageExpected [
  "          desc. The input file must exist and read permissions must be\n",
  "          granted. Valid file extensions are: [fa, sam, fasta, fasta.txt].\n"]

-- Test `output_file`.
def outputFiles : Disk := disk [("testbox_2.fasta", file)]

#guard accepts (outFile .createNew []) outputFiles (arg "testbox.fasta")
#guard accepts (outFile .openOrCreate []) outputFiles (arg "testbox.fasta")
#guard accepts (outFile .createNew [""]) outputFiles (arg "testbox.fasta")
#guard rejects (outFile .openOrCreate []) outputFiles ⟨strs ["tmp"], "tmp".toList⟩
#guard rejects (outFile .createNew ["sam"]) outputFiles (arg "testbox_2.fasta")
#guard rejects (outFile .createNew formats) outputFiles (arg "testbox_2.fasta")
#guard accepts (outFile .openOrCreate formats) outputFiles (arg "testbox_2.fasta")
#guard (after (outFile .openOrCreate formats) outputFiles (arg "testbox_2.fasta")).lookup (arg "testbox_2.fasta").loc
  = .missing
#guard rejects (outFile .openOrCreate formats) outputFiles (arg "testbox")
#guard rejects (outFile .createNew ["/tmp/test/testbox.fasta.longer.than.path"]) outputFiles (arg "testbox.fasta")
#guard rejects (outFile .createNew ["/tmp/test/testbox_2.fasta.longer.than.path"]) outputFiles (arg "testbox_2.fasta")
#guard accepts (outFile .createNew formats) outputFiles (arg ".testbox.fasta")
#guard accepts (outFile .createNew formats) outputFiles (arg "testbox.fasta.txt")
#guard accepts (outFile .createNew formats) outputFiles (arg "testbox.fasta")
#guard accepts (outFile .createNew formats) outputFiles (arg "testbox_3.fa")
#guard pathPage (outFile .createNew formats) = pathPageExpected [
  "          desc. The output file must not exist already and write permissions\n",
  "          must be granted. Valid file extensions are: [fa, sam, fasta,\n",
  "          fasta.txt].\n"]
#guard pathPage (outFile .openOrCreate formats) = pathPageExpected [
  "          desc. Write permissions must be granted. Valid file extensions are:\n",
  "          [fa, sam, fasta, fasta.txt].\n"]
#guard (outFile .createNew formats).help = ("The output file must not exist already and write permissions " ++
  "must be granted. Valid file extensions are: [fa, sam, fasta, fasta.txt].").toList
#guard (outFile .createNew []).help =
  "The output file must not exist already and write permissions must be granted.".toList

-- Test `input_directory`.
def oneFile : Disk := disk [("testbox.fasta", file)]

#guard rejects inputDirectory oneFile (arg "testbox.fasta")
#guard accepts inputDirectory oneFile dirArg
#guard pathPage inputDirectory = pathPageExpected ["          desc. An existing, readable path for the input directory.\n"]

-- Test `output_directory`.
def childDir : PathArg := ⟨strs ["tmp", "test", "dir", "child_dir"], "child_dir".toList⟩

#guard rejects (outputDirectory false) oneFile (arg "testbox.fasta")
#guard accepts (outputDirectory false) oneFile dirArg
#guard rejects (outputDirectory false) oneFile childDir
#guard accepts (outputDirectory false) (disk [("dir", .dir true true true)]) childDir
#guard pathPage (outputDirectory false) = pathPageExpected ["          desc. A valid path for the output directory.\n"]

-- Test `inputfile_not_readable`.
#guard accepts (inFile []) (disk [("my_file.test", file)]) (arg "my_file.test")
#guard rejects (inFile []) (disk [("my_file.test", .file [] false true)]) (arg "my_file.test")

-- Test `inputfile_not_regular`.
#guard rejects (inFile []) (disk [("my_file.test", .special true true)]) (arg "my_file.test")

-- Test `inputdir_not_existing`.
#guard rejects inputDirectory (disk []) (arg "dir")

-- Test `inputdir_not_readable`.
#guard accepts inputDirectory (disk [("dir", .dir true true true)]) (arg "dir")
#guard rejects inputDirectory (disk [("dir", .dir false true true)]) (arg "dir")

-- Test `outputfile_not_writable`.
/-- The directory of the test without the right to write. -/
def lockedDisk (l : List (String × Node)) : Disk :=
  (disk l).map fun e => if e.1 = strs ["tmp", "test"] then (e.1, .dir true false true) else e

#guard accepts (outFile .createNew []) (disk []) (arg "my_file.test")
#guard rejects (outFile .createNew []) (lockedDisk []) (arg "my_file.test")

-- Test `output_parent_dir_not_writable`.
#guard rejects (outFile .createNew []) (disk [("dir", .dir true false true)]) (arg "dir")
#guard rejects (outFile .createNew []) (lockedDisk [("dir", .dir true false true)]) (arg "dir")

-- Test `outputdir_not_writable`.
#guard accepts (outputDirectory false) (disk [("dir", .dir true true true)]) (arg "dir")
#guard rejects (outFile .createNew []) (disk [("dir", .dir true false true)]) (arg "dir")
#guard rejects (outputDirectory false) (disk [("dir", .dir true false true)]) (arg "dir")

/-! ### Validators for numbers and texts -/

def intTy : NumTy := .integer (-2147483648) 2147483647

def showNum : Num → Str
  | .int x => showInt x
  | .real _ => []

/-- `arithmetic_range_validator{lo, hi}`. -/
def range (lo hi : Int) : Validator World Num := arithmeticRange intTy showNum (.int lo) (.int hi)

/-- `value_list_validator<int>`. -/
def intList (l : List Int) : Validator World Num :=
  valueList (fun | .int x => x | .real _ => 0) (valueListMessage (l.map showInt)) l

/-- A validator for texts at an option of type `std::string` or a list of those. -/
def onTexts (v : Validator World Str) : Val → World → Bool × World := fun x w =>
  match x with
  | .one (.str t) => v.inParser t w
  | .many es => v.each.inParser (es.filterMap fun | .str t => some t | _ => none) w
  | _ => (true, w)

def texts (l : List String) : Validator World Str := valueList id (valueListMessage (strs l)) (strs l)

def vOpt (short : Char) (isList : Bool) (ty : ElemTy) (v : Val → World → Bool × World) (long : String := "") : Call World :=
  .addOption { short := short, long := long.toList } 0 isList ty v

def vPos (isList : Bool) (ty : ElemTy) (v : Val → World → Bool × World) : Call World :=
  .addPositionalOption {} 0 isList ty v

def ints (l : List Int) : Val := .many (l.map Elem.int)
def stringsVal (l : List String) : Val := .many (l.map str)

-- Test `arithmetic_range_validator_success`.
#guard succeeds ["-i", "10"] [vOpt 'i' false int32 (range 1 20).onIntegers] [i 0] [i 10]
#guard succeeds ["-i", "-10"] [vOpt 'i' false int32 (range (-20) 20).onIntegers] [i 0] [i (-10)]
#guard succeeds ["10"] [vPos false int32 (range 1 20).onIntegers] [i 0] [i 10]
#guard succeeds ["--", "-10"] [vPos false int32 (range (-20) 20).onIntegers] [i 0] [i (-10)]
#guard succeeds ["-i", "-10", "-i", "48"] [vOpt 'i' true int32 (range (-50) 50).onIntegers] [ints []] [ints [-10, 48]]
#guard succeeds ["--", "-10", "1"] [vPos true int32 (range (-20) 20).onIntegers] [ints []] [ints [-10, 1]]
#guard cout (pages true {}) (getParser ["-h"])
    [.addPositionalOption { description := "desc".toList, validatorMessage := (range (-20) 20).help } 0 true int32 anything]
    [ints []] =
  text (["test_parser\n", "===========\n", "\n", "POSITIONAL ARGUMENTS\n", "    ARGUMENT-1 (List of signed 32 bit integer)\n",
    "          desc Default: []. Value must be in range [-20,20].\n", "\nOPTIONS\n\n"] ++ basicOptions true ++ ["\n"]
    ++ versionStr)

-- Test `arithmetic_range_validator_error`.
#guard fails ["-i", "30"] [vOpt 'i' false int32 (range 1 20).onIntegers] [i 0] .validationError [i 30]
#guard fails ["-i", "-21"] [vOpt 'i' false int32 (range (-20) 20).onIntegers] [i 0] .validationError [i (-21)]
#guard fails ["30"] [vPos false int32 (range 1 20).onIntegers] [i 0] .validationError [i 30]
#guard fails ["--", "-21"] [vPos false int32 (range (-20) 20).onIntegers] [i 0] .validationError [i (-21)]
#guard fails ["-i", "-100"] [vOpt 'i' true int32 (range (-50) 50).onIntegers] [ints []] .validationError [ints [-100]]
#guard fails ["--", "-10", "100"] [vPos true int32 (range (-20) 20).onIntegers] [ints []] .validationError [ints [-10, 100]]

-- Test `value_list_validator_success`.
#guard succeeds ["-s", "ba"] [vOpt 's' false .string (onTexts (texts ["ha", "ba"]))] [s ""] [s "ba"]
#guard succeeds ["-i", "-21"] [vOpt 'i' false int32 (intList [0, -21, 10]).onIntegers] [i 0] [i (-21)]
#guard succeeds ["ma"] [vPos false .string (onTexts (texts ["ha", "ba", "ma"]))] [s ""] [s "ma"]
#guard succeeds ["ha", "ma"] [vPos true .string (onTexts (texts ["ha", "ba", "ma"]))] [stringsVal []]
  [stringsVal ["ha", "ma"]]
#guard succeeds ["-i", "-10", "-i", "48"] [vOpt 'i' true int32 (intList [-10, 48, 50]).onIntegers] [ints []] [ints [-10, 48]]
#guard cout (pages true {}) (getParser ["-h"])
    [.addOption { short := 'i', long := "int-option".toList, description := "desc".toList,
                  validatorMessage := (intList [-10, 48, 50]).help } 0 true int32 anything] [ints []] =
  text (["test_parser\n", "===========\n", "\nOPTIONS\n", "    -i, --int-option (List of signed 32 bit integer)\n",
    "          desc Default: []. Value must be one of [-10, 48, 50].\n\n"] ++ basicOptions true ++ ["\n"] ++ versionStr)

-- Test `value_list_validator_error`.
#guard fails ["-s", "sa"] [vOpt 's' false .string (onTexts (texts ["ha", "ba", "ma"]))] [s ""] .validationError [s "sa"]
#guard fails ["30"] [vPos false int32 (intList [0, 5, 10]).onIntegers] [i 0] .validationError [i 30]
#guard fails ["fo", "ma"] [vPos true .string (onTexts (texts ["ha", "ba", "ma"]))] [stringsVal []] .validationError
  [stringsVal ["fo", "ma"]]
#guard fails ["-i", "-10", "-i", "488"] [vOpt 'i' true int32 (intList [-10, 48, 50]).onIntegers] [ints []] .validationError
  [ints [-10, 488]]

-- Tests `regex_validator_success` and `regex_validator_error`.
def patterned (p : String) : Validator World Str := patternValidator (fun _ => none) .userInputError p.toList

def email : Validator World Str := patterned "[a-zA-Z]+@[a-zA-Z]+\\.com"

def oll : Validator World Str := patterned ".*oll.*"

#guard succeeds ["-s", "ballo@rollo.com"] [vOpt 's' false .string (onTexts email)] [s ""] [s "ballo@rollo.com"]
#guard succeeds ["chr1"] [vPos false .string (onTexts (patterned "^chr[0-9]+"))] [s ""] [s "chr1"]
#guard succeeds ["rollo", "bollo", "lollo"] [vPos true .string (onTexts oll)] [stringsVal []]
  [stringsVal ["rollo", "bollo", "lollo"]]
#guard succeeds ["-s", "rita@rambo.com", "-s", "tina@rambo.com"] [vOpt 's' true .string (onTexts email)] [stringsVal []]
  [stringsVal ["rita@rambo.com", "tina@rambo.com"]]
#guard cout (pages true {}) (getParser ["-h"])
    [.addOption { short := 's', long := "string-option".toList, description := "desc".toList,
                  validatorMessage := email.help } 0 true .string anything] [stringsVal []] =
  text (["test_parser\n", "===========\n", "\nOPTIONS\n", "    -s, --string-option (List of std::string)\n",
    "          desc Default: []. Value must match the pattern\n", "          '[a-zA-Z]+@[a-zA-Z]+\\.com'.\n", "\n"]
    ++ basicOptions true ++ ["\n"] ++ versionStr)
#guard fails ["--string-option", "sally"]
  [vOpt no false .string (onTexts (patterned "tt")) "string-option"] [s ""] .validationError
  [s "sally"]
#guard fails ["jessy"] [vPos false .string (onTexts (patterned "[0-9]"))] [s ""] .validationError [s "jessy"]
#guard fails ["rollo", "bttllo", "lollo"] [vPos true .string (onTexts oll)] [stringsVal []] .validationError
  [stringsVal ["rollo", "bttllo", "lollo"]]
#guard fails ["-s", "gh", "-s", "tt"] [vOpt 's' true .string (onTexts (patterned "tt"))]
  [stringsVal []] .validationError [stringsVal ["gh", "tt"]]

-- Test `chaining_validators`: texts, and the order of the validators on paths.
/-- `(/[^/]+)+/.*\.[^/\.]+$` for a path text given by its parts: it is absolute. -/
def absolute (isAbsolute : Bool) : Validator Disk PathArg where
  run _ := if isAbsolute then M.pure () else M.throw .validationError
  help := "Value must match the pattern '(/[^/]+)+/.*\\.[^/\\.]+$'.".toList

def anyText : Validator Disk PathArg where
  run _ := M.pure ()
  help := "Value must match the pattern '.*'.".toList

def saSo (mode : OpenMode) : Validator Disk PathArg := outFile mode ["sa", "so"]

#guard accepts ((absolute true).chain (saSo .createNew)) (disk []) (arg "file.sa")
#guard rejects ((absolute false).chain (saSo .createNew)) (disk []) (arg "file.sa")
#guard rejects ((absolute true).chain (saSo .createNew)) (disk []) (arg "file.invalid")
#guard accepts (((absolute true).chain (saSo .createNew)).chain anyText) (disk []) (arg "file.sa")

def chainPage (v : Validator Disk PathArg) : Option Str :=
  cout (pages true {}) (getParser ["-h"])
    [.addOption { short := 's', long := "string-option".toList, description := "desc".toList, validatorMessage := v.help }
      0 false .string anything] [s ""]

#guard chainPage (((absolute true).chain (saSo .createNew)).chain anyText) =
  text (["test_parser\n", "===========\n", "\nOPTIONS\n", "    -s, --string-option (std::string)\n",
    "          desc Default: \"\". Value must match the pattern\n",
    "          '(/[^/]+)+/.*\\.[^/\\.]+$'. The output file must not exist already and\n",
    "          write permissions must be granted. Valid file extensions are: [sa,\n",
    "          so]. Value must match the pattern '.*'.\n", "\n"] ++ basicOptions true ++ ["\n"] ++ versionStr)
#guard chainPage (((absolute true).chain (saSo .openOrCreate)).chain anyText) =
  text (["test_parser\n", "===========\n", "\nOPTIONS\n", "    -s, --string-option (std::string)\n",
    "          desc Default: \"\". Value must match the pattern\n",
    "          '(/[^/]+)+/.*\\.[^/\\.]+$'. Write permissions must be granted. Valid\n",
    "          file extensions are: [sa, so]. Value must match the pattern '.*'.\n", "\n"]
    ++ basicOptions true ++ ["\n"] ++ versionStr)

/-! ### `safe_filesystem_entry_test.cpp` -/

def dummy : Loc := strs ["tmp", "test", "dummy.txt"]

/-- Whether the guarded scope ends normally, and what is at the location afterwards. -/
def guardResult (fs : Disk) (body : FsM Unit) : Bool × Lookup :=
  match withGuard false dummy body fs with
  | .ok _ fs' => (true, fs'.lookup dummy)
  | .err _ fs' => (false, fs'.lookup dummy)

#guard guardResult (disk [("dummy.txt", file)]) (M.pure ()) = (true, .missing)
#guard guardResult (disk []) (M.pure ()) = (true, .missing)
#guard guardResult (disk [("dummy.txt", .dir true true true)]) (M.pure ()) = (true, .missing)
#guard guardResult (disk [("dummy.txt", file)]) (fsRemove dummy) = (true, .missing)
#guard guardResult (disk [("dummy.txt", .dir true true true)]) (fsRemoveAll dummy) = (true, .missing)

/-! ### `charconv_int_test.cpp` -/

/-- The limits of `int8_t`, …, `int64_t` and of `uint8_t`, …, `uint64_t`. -/
def signedTypes : List (Int × Int) := [8, 16, 32, 64].map fun n => (-2 ^ (n - 1), 2 ^ (n - 1) - 1)
def unsignedTypes : List (Int × Int) := [8, 16, 32, 64].map fun n => (0, 2 ^ n - 1)

def fromCharsOn (types : List (Int × Int)) (t : String) (expected : FromChars) : Bool :=
  types.all fun p => match fromChars p.1 p.2 t.toList, expected with
    | .ok v rest, .ok v' rest' => v = v' && rest = rest'
    | .outOfRange, .outOfRange => true
    | .invalid, .invalid => true
    | _, _ => false

#guard fromCharsOn (signedTypes ++ unsignedTypes) "123" (.ok 123 [])
#guard fromCharsOn (signedTypes ++ unsignedTypes) "023" (.ok 23 [])
#guard fromCharsOn signedTypes "-123" (.ok (-123) [])
#guard fromCharsOn unsignedTypes "-123" .invalid
#guard fromCharsOn (signedTypes ++ unsignedTypes) "123000000000000000000" .outOfRange
#guard fromCharsOn (signedTypes ++ unsignedTypes) "1a3" (.ok 1 "a3".toList)
#guard fromCharsOn (signedTypes ++ unsignedTypes) "12a" (.ok 12 "a".toList)
#guard fromCharsOn (signedTypes ++ unsignedTypes) "1.3" (.ok 1 ".3".toList)
#guard fromCharsOn (signedTypes ++ unsignedTypes) "a13" .invalid
#guard fromCharsOn (signedTypes ++ unsignedTypes) "+13" .invalid

end Sharg.Tests
