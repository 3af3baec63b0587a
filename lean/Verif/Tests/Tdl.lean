import Verif.Tests.Parse
import Verif.Model.Messages

/-!
# `test/unit/detail/format_ctd_test.cpp` and `test/unit/detail/format_cwl_test.cpp`

The expected texts are read as the data structure that the external library prints.
-/

namespace Sharg.Tests

/-- Pages with a recognisable text for a tool description. -/
def toolPages (info : Meta) : PageEnv :=
  { pages true info (types "" [""]) with printTool := fun _ t => (reprStr t).toList }

/-- The printed tool descriptions are as expected. -/
def prints (info : Meta) (p : Parser World) (calls : List (Call World)) (vars : List Val) (expected : ToolInfo)
    (newline : Bool) : Bool :=
  cout (toolPages info) p calls vars = some ((reprStr expected).toList ++ if newline then ['\n'] else [])

def param (name description : String) (tags : List String) (value : TdlValue) : TdlParam :=
  ⟨name.toList, description.toList, strs tags, value⟩

def mapping (names : List String) : List (Str × Str) := names.map fun n => ("--".toList ++ n.toList, n.toList)

-- Test `empty_information`.
def emptyInfo : Meta :=
  { date := "December 01, 1994".toList, version := "1.1.2-rc.1".toList, manPageTitle := "default_man_page_title".toList,
    shortDescription := "A short description here.".toList }

def emptyTool : ToolInfo :=
  { version := "1.1.2-rc.1".toList, name := "test_parser".toList, docurl := [], description := [],
    executableName := some "./test_parser".toList, params := .params [], cliMapping := [] }

#guard prints emptyInfo (getParser ["--export-help", "ctd"]) [] [] emptyTool false
#guard prints emptyInfo (getParser ["--export-help", "cwl"]) [] [] emptyTool true

-- Test `full_information`.
def fullInfo : Meta :=
  { date := "December 01, 1994".toList, version := "01.01.01".toList, manPageTitle := "default_ctd_page_title".toList,
    shortDescription := "A short description here.".toList,
    synopsis := strs ["./format_ctd_test synopsis", "./format_ctd_test synopsis2"],
    description := strs ["description", "description2"], examples := strs ["example", "example2"] }

def described (short : Char) (long description : String) : Config :=
  { short := short, long := long.toList, description := description.toList }

/-- The variables: `option_value`, `flag_value`, `non_list_pos_opt_value`, `list_pos_opt_value`. -/
def fullVars : List Val := [i 5, b false, i 1, .many []]

def fullCalls : List (Call World) :=
  [ .addOption (described 'i' "int" "this is a int option.") 0 false int32 anything,
    .addOption { described 'j' "jint" "this is a required int option." with required := true } 0 false int32 anything,
    .addSection "Flags".toList false,
    .addSubsection "SubFlags".toList false,
    .addLine "here come all the flags".toList false false,
    .addFlag (described 'f' "flag" "this is a flag.") 1 false,
    .addFlag (described 'k' "kflag" "this is a flag.") 1 false,
    .addPositionalOption (described no "" "this is a positional option.") 2 false int8 anything,
    .addPositionalOption (described no "" "this is a positional option.") 3 true .string anything ]

def positionals : List TdlParam :=
  [ param "positional_0" "this is a positional option." ["required"] (.str []),
    param "positional_1" "this is a positional option. Default: []" [] .strList ]

def intParams : List TdlParam :=
  [ param "int" "this is a int option. Default: 5" [] (.int 5),
    param "jint" "this is a required int option." ["required"] (.int 5) ]

def flagParams : List TdlParam :=
  [ param "flag" "this is a flag." [] (.bool false), param "kflag" "this is a flag." [] (.bool false) ]

def fullTool : ToolInfo :=
  { version := "01.01.01".toList, name := "test_parser".toList, docurl := [],
    description := "description\ndescription2\n".toList, executableName := some "./test_parser".toList,
    params := .params (positionals ++ intParams ++ flagParams), cliMapping := mapping ["int", "jint"] }

#guard prints fullInfo (getParser ["--export-help", "ctd"]) fullCalls fullVars fullTool false
#guard prints fullInfo (getParser ["--export-help", "cwl"]) fullCalls fullVars fullTool true

-- Test `subparser`: `parser.info` of the sub-parser is its own.
def pathOpt (long description message : String) (tags : List String) : Call World :=
  .addOption { described no long description with validatorMessage := message.toList, validatorTags := strs tags }
    6 false path anything

/-- The variables: those of `full_information`, then `option_value_float`, `option_value_string`, `option_value_path`. -/
def subVars : List Val := fullVars ++ [.one (.other 0), s "", .one (.other 0)]

def inputText : String := String.ofList (inputFileMessage [])
def outputText : String := String.ofList (outputFileMessage .createNew [])
def inputDirText : String := String.ofList inputDirectory.help
def outputDirText : String := String.ofList (outputDirectory false).help

def subCalls : List (Call World) :=
  fullCalls.take 2 ++
  [ .addOption { described 'p' "percent" "this is a required float option." with required := true } 4 false double
      anything,
    .addOption { described 's' "string" "this is a string option (advanced)." with advanced := true } 5 false .string
      anything,
    .addOption { described no "hide" "a hidden option, that doesn't show up." with hidden := true } 5 false .string
      anything,
    pathOpt "path01" "a normal file." inputText ["file"],
    pathOpt "path02" "a normal file with a valid file extension."
      (String.ofList (inputFileMessage (strs [".fa", ".fasta"]))) ["file"],
    pathOpt "path03" "a input directory." inputDirText ["directory"],
    pathOpt "path04" "a output file." outputText ["file", "output"],
    pathOpt "path05" "a output directory." outputDirText ["directory", "output"] ] ++ fullCalls.drop 2

def subInfo : Meta := { examples := strs ["example", "example2"] }

def pathParams : List TdlParam :=
  [ param "path01" "a normal file. Default: \"\". The input file must exist and read permissions must be granted."
      ["file"] (.str "\"\"".toList),
    param "path02" ("a normal file with a valid file extension. Default: \"\". The input file must exist and read " ++
      "permissions must be granted. Valid file extensions are: [.fa, .fasta].") ["file"] (.str "\"\"".toList),
    param "path03" "a input directory. Default: \"\". An existing, readable path for the input directory."
      ["directory"] (.str "\"\"".toList),
    param "path04" ("a output file. Default: \"\". The output file must not exist already and write permissions " ++
      "must be granted.") ["file", "output"] (.str "\"\"".toList),
    param "path05" "a output directory. Default: \"\". A valid path for the output directory."
      ["directory", "output"] (.str "\"\"".toList) ]

def subTool : ToolInfo :=
  { version := [], name := "test_parser-index".toList, docurl := [], description := [],
    executableName := some "./test_parser".toList,
    params := .command "index".toList (.params (positionals ++ intParams ++
      [ param "percent" "this is a required float option." ["required"] (.double 0),
        param "string" "this is a string option (advanced). Default: \"\"" ["advanced"] (.str []) ]
      ++ pathParams ++ flagParams)),
    cliMapping := mapping ["int", "jint", "percent", "string", "path01", "path02", "path03", "path04", "path05"] }

#guard match subParser (getParser ["index", "--export-help", "cwl"] ["index"]) [] [] with
  | some p => p.appName = "test_parser-index".toList && prints subInfo p subCalls subVars subTool true
  | none => false

-- Test `subsubparser`.
def subSubTool : ToolInfo :=
  { version := [], name := "test_parser-index-show".toList, docurl := [], description := [],
    executableName := some "./test_parser".toList,
    params := .command "index".toList (.command "show".toList (.params
      [ param "jint" "this is a required int option." ["required"] (.int 5),
        param "string" "this is a string option (advanced). Default: \"\"" ["advanced"] (.str []),
        param "path04" ("a output file. Default: \"\". The output file must not exist already and write permissions " ++
          "must be granted.") ["file", "output"] (.str "\"\"".toList) ])),
    cliMapping := mapping ["jint", "string", "path04"] }

#guard match subParser (getParser ["index", "show", "--export-help", "cwl"] ["index"]) [] [] with
  | some p => match subParser p [.addSubcommands (strs ["show"])] [] with
    | some q => prints {} q
        [ .addOption { described 'j' "jint" "this is a required int option." with required := true } 0 false int32 anything,
          .addOption { described 's' "string" "this is a string option (advanced)." with advanced := true } 5 false
            .string anything,
          pathOpt "path04" "a output file." outputText ["file", "output"] ] subVars subSubTool true
    | none => false
  | none => false

end Sharg.Tests
