import Verif.Tests.Fixture

/-! # `test/unit/detail/format_help_test.cpp` -/

namespace Sharg.Tests

-- Test `short_help`.
#guard ∀ args ∈ [[], ["--version-check", "0"]],
    cout (pages true { synopsis := strs ["./some_binary_name synopsis"] }) (getParser args)
      [.addOption { short := 'i', required := true } 0 false int32 anything] [.one (.int 0)] =
    text [ "test_parser\n",
      "===========\n",
      "    ./some_binary_name synopsis\n",
      "    Try -h or --help for more information.\n" ]

/-- The calls of `quote_strings` and `quote_paths`. -/
def quoteCalls (ty : ElemTy) (id msg : String) : List (Call World) :=
  [ .addOption { short := 'a', long := (id ++ "1").toList } 0 false ty anything,
    .addOption { short := 'b', long := (id ++ "2").toList } 1 false ty anything,
    .addOption { short := 'c', long := (id ++ "3").toList, defaultMessage := msg.toList } 1 false ty anything,
    .addOption { short := 'd', long := (id ++ "4").toList } 2 true ty anything,
    .addOption { short := 'e', long := (id ++ "5").toList, defaultMessage := "None".toList } 2 true ty anything,
    .addPositionalOption {} 2 true ty anything ]

-- Test `quote_strings`.
#guard ∀ tdl : Bool, cout (pages tdl {}) (getParser ["-h"]) (quoteCalls .string "string" "Quoted")
      [.one (str ""), .one (str "Some string"), .many [str "Some", str "other", str "string"]] =
    text ([ "test_parser\n",
      "===========\n\n",
      "POSITIONAL ARGUMENTS\n",
      "    ARGUMENT-1 (List of std::string)\n",
      "          Default: [\"Some\", \"other\", \"string\"]\n\n",
      "OPTIONS\n",
      "    -a, --string1 (std::string)\n",
      "          Default: \"\"\n",
      "    -b, --string2 (std::string)\n",
      "          Default: \"Some string\"\n",
      "    -c, --string3 (std::string)\n",
      "          Default: \"Quoted\"\n",
      "    -d, --string4 (List of std::string)\n",
      "          Default: [\"Some\", \"other\", \"string\"]\n",
      "    -e, --string5 (List of std::string)\n",
      "          Default: None\n\n" ] ++ basicOptions tdl ++ ["\n"] ++ versionStr)

-- Test `quote_paths`.
#guard ∀ tdl : Bool, cout (pages tdl {} (types "" ["", "/some/path", "/some", "/other", "/path"]))
      (getParser ["-h"]) (quoteCalls path "path" "/usr/bin/")
      [.one (.other 0), .one (.other 1), .many [.other 2, .other 3, .other 4]] =
    text ([ "test_parser\n",
      "===========\n\n",
      "POSITIONAL ARGUMENTS\n",
      "    ARGUMENT-1 (List of std::filesystem::path)\n",
      "          Default: [\"/some\", \"/other\", \"/path\"]\n\n",
      "OPTIONS\n",
      "    -a, --path1 (std::filesystem::path)\n",
      "          Default: \"\"\n",
      "    -b, --path2 (std::filesystem::path)\n",
      "          Default: \"/some/path\"\n",
      "    -c, --path3 (std::filesystem::path)\n",
      "          Default: \"/usr/bin/\"\n",
      "    -d, --path4 (List of std::filesystem::path)\n",
      "          Default: [\"/some\", \"/other\", \"/path\"]\n",
      "    -e, --path5 (List of std::filesystem::path)\n",
      "          Default: None\n\n" ] ++ basicOptions tdl ++ ["\n"] ++ versionStr)

/-- A page without options. -/
def plainPage (tdl : Bool) (legal : List String := []) : Option Str :=
  text ([ "test_parser\n", "===========\n", "\nOPTIONS\n\n" ] ++ basicOptions tdl ++ ["\n"] ++ versionStr ++ legal)

-- Test `no_information`.
#guard ∀ tdl : Bool, cout (pages tdl {}) (getParser ["-h"]) [] [] = plainPage tdl

-- Test `with_short_copyright`.
#guard ∀ tdl : Bool, cout (pages tdl { shortCopyright := "short".toList }) (getParser ["-h"]) [] [] =
    plainPage tdl [ "\n", "LEGAL\n",
      "    test_parser Copyright: short\n",
      "    SeqAn Copyright: 2006-2024 Knut Reinert, FU-Berlin; released under the\n",
      "    3-clause BSDL.\n" ]

-- Test `with_long_copyright`.
#guard ∀ tdl : Bool, cout (pages tdl { longCopyright := "long".toList }) (getParser ["-h"]) [] [] =
    plainPage tdl [ "\n", "LEGAL\n",
      "    SeqAn Copyright: 2006-2024 Knut Reinert, FU-Berlin; released under the\n",
      "    3-clause BSDL.\n",
      "    For full copyright and/or warranty information see --copyright.\n" ]

-- Test `with_citation`.
#guard ∀ tdl : Bool, cout (pages tdl { citation := "citation".toList }) (getParser ["-h"]) [] [] =
    plainPage tdl [ "\n", "LEGAL\n",
      "    SeqAn Copyright: 2006-2024 Knut Reinert, FU-Berlin; released under the\n",
      "    3-clause BSDL.\n",
      "    In your academic works please cite: citation\n" ]

-- Test `with_author`.
#guard ∀ tdl : Bool, cout (pages tdl { author := "author".toList }) (getParser ["-h"]) [] [] =
    plainPage tdl [ "\n", "LEGAL\n",
      "    Author: author\n",
      "    SeqAn Copyright: 2006-2024 Knut Reinert, FU-Berlin; released under the\n",
      "    3-clause BSDL.\n" ]

-- Test `with_email`.
#guard ∀ tdl : Bool, cout (pages tdl { email := "email".toList }) (getParser ["-h"]) [] [] =
    plainPage tdl [ "\n", "LEGAL\n",
      "    Contact: email\n",
      "    SeqAn Copyright: 2006-2024 Knut Reinert, FU-Berlin; released under the\n",
      "    3-clause BSDL.\n" ]

-- Test `empty_advanced_help`.
#guard ∀ tdl : Bool, cout (pages tdl {}) (getParser ["-hh"]) [] [] = plainPage tdl

-- Test `empty_version_call`.
#guard ∀ tdl : Bool, cout (pages tdl {}) (getParser ["--version"]) [] [] =
    text (["test_parser\n", "===========\n", "\n"] ++ versionStr)

-- Test `version_call`.
#guard ∀ tdl : Bool, cout (pages tdl { url := "https://seqan.de".toList }) (getParser ["--version"])
      [ .addOption { short := 'i' } 0 false int32 anything, .addFlag { short := 'f' } 1 false,
        .addPositionalOption {} 2 true .string anything ] [.one (.int 5), .one (.bool false), .many []] =
    text (["test_parser\n", "===========\n", "\n"] ++ versionStr ++ ["\n", "URL\n", "    https://seqan.de\n"])

-- Test `do_not_print_hidden_options`.
#guard ∀ tdl : Bool, cout (pages tdl {}) (getParser ["-h"])
      [ .addOption { short := 'i', hidden := true } 0 false int32 anything,
        .addFlag { short := 'f', hidden := true } 1 false ] [.one (.int 5), .one (.bool false)] =
    plainPage tdl

/-- The calls of `advanced_options`. -/
def advancedCalls : List (Call World) :=
  [ .addSection "default section".toList false,
    .addSubsection "default subsection".toList false,
    .addOption { short := 'i', long := "int".toList, description := "this is a int option.".toList, required := true }
      0 false int32 anything,
    .addFlag { short := 'g', long := "goo".toList, description := "this is a flag.".toList, required := true } 2 false,
    .addListItem "-s, --some".toList "list item.".toList false,
    .addLine "some line.".toList true false,
    .addSection "advanced section".toList true,
    .addSubsection "advanced subsection".toList true,
    .addOption { short := 'j', long := "jnt".toList, description := "this is a int option.".toList, advanced := true }
      1 false uint8 anything,
    .addFlag { short := 'f', long := "flag".toList, description := "this is a flag.".toList, advanced := true } 2 false,
    .addListItem "-s, --some".toList "list item.".toList true,
    .addLine "some line.".toList true true ]

-- Test `advanced_options`, first part.
#guard ∀ tdl : Bool, cout (pages tdl {}) (getParser ["-h"]) advancedCalls
      [.one (.int 5), .one (.int 2), .one (.bool false)] =
    text ([ "test_parser\n",
      "===========\n",
      "\nOPTIONS\n",
      "\n",
      "DEFAULT SECTION\n",
      "\n",
      "  default subsection\n",
      "    -i, --int (signed 32 bit integer)\n",
      "          this is a int option.\n",
      "    -g, --goo\n",
      "          this is a flag.\n",
      "    -s, --some\n",
      "          list item.\n",
      "    some line.\n",
      "\n" ] ++ basicOptions tdl ++ ["\n"] ++ versionStr)

-- Test `advanced_options`, second part.
#guard ∀ tdl : Bool, cout (pages tdl {}) (getParser ["-hh"]) advancedCalls
      [.one (.int 5), .one (.int 2), .one (.bool false)] =
    text ([ "test_parser\n",
      "===========\n",
      "\nOPTIONS\n",
      "\n",
      "DEFAULT SECTION\n",
      "\n",
      "  default subsection\n",
      "    -i, --int (signed 32 bit integer)\n",
      "          this is a int option.\n",
      "    -g, --goo\n",
      "          this is a flag.\n",
      "    -s, --some\n",
      "          list item.\n",
      "    some line.\n",
      "\n",
      "ADVANCED SECTION\n",
      "\n",
      "  advanced subsection\n",
      "    -j, --jnt (unsigned 8 bit integer)\n",
      "          this is a int option. Default: 2\n",
      "    -f, --flag\n",
      "          this is a flag.\n",
      "    -s, --some\n",
      "          list item.\n",
      "    some line.\n",
      "\n" ] ++ basicOptions tdl ++ ["\n"] ++ versionStr)

-- Test `full_information`. The text of the validator is given.
#guard ∀ tdl : Bool, cout (pages tdl
      { synopsis := strs ["./some_binary_name synopsis", "./some_binary_name synopsis2"],
        description := strs ["description", "description2"], shortDescription := "so short".toList,
        examples := strs ["example", "example2"] } (types "foo")) (getParser ["-h"])
      [ .addOption { short := 'i', long := "int".toList, description := "this is a int option.".toList,
                     defaultMessage := "A number".toList } 0 false int32 anything,
        .addOption { short := 'e', long := "enum".toList, description := "this is an enum option.".toList,
                     validatorMessage := "Value must be one of [three, two, one].".toList } 1 false
          (enumTy [("one", 0), ("two", 1), ("three", 2)]) anything,
        .addOption { short := 'r', long := "required-int".toList, description := "this is another int option.".toList,
                     required := true } 2 false int8 anything,
        .addSection "Flags".toList false,
        .addSubsection "SubFlags".toList false,
        .addLine "here come all the flags".toList false false,
        .addFlag { short := 'f', long := "flag".toList, description := "this is a flag.".toList } 3 false,
        .addPositionalOption { description := "this is not a list.".toList } 4 false int8 anything,
        .addPositionalOption { description := "this is a positional option.".toList } 5 true .string anything ]
      [.one (.int 5), .one (.enumv 0), .one (.int 0), .one (.bool false), .one (.int 1), .many []] =
    text ([ "test_parser - so short\n",
      "======================\n",
      "\n",
      "SYNOPSIS\n",
      "    ./some_binary_name synopsis\n",
      "    ./some_binary_name synopsis2\n",
      "\n",
      "DESCRIPTION\n",
      "    description\n",
      "\n",
      "    description2\n",
      "\n",
      "POSITIONAL ARGUMENTS\n",
      "    ARGUMENT-1 (signed 8 bit integer)\n",
      "          this is not a list.\n",
      "    ARGUMENT-2 (List of std::string)\n",
      "          this is a positional option. Default: []\n",
      "\nOPTIONS\n",
      "    -i, --int (signed 32 bit integer)\n",
      "          this is a int option. Default: A number\n",
      "    -e, --enum (foo)\n",
      "          this is an enum option. Default: one. Value must be one of [three,\n",
      "          two, one].\n",
      "    -r, --required-int (signed 8 bit integer)\n",
      "          this is another int option.\n",
      "\n",
      "FLAGS\n",
      "\n",
      "  SubFlags\n",
      "    here come all the flags\n",
      "    -f, --flag\n",
      "          this is a flag.\n",
      "\n" ] ++ basicOptions tdl ++
      [ "\n",
      "EXAMPLES\n",
      "    example\n",
      "\n",
      "    example2\n",
      "\n" ] ++ versionStr)

/-- Test `copyright`, with a short text instead of the license. -/
def copyrightText (text' : List String) : Option Str :=
  text ([ "================================================================================\n",
    "Copyright information for test_parser:\n",
    "--------------------------------------------------------------------------------\n" ] ++ text' ++
    [ "================================================================================\n",
    "This program contains SeqAn code licensed under the following terms:\n",
    "--------------------------------------------------------------------------------\n",
    "license\n" ])

#guard cout (pages true {}) (getParser ["--copyright"]) [] [] =
    copyrightText ["test_parser copyright information not available.\n"]

#guard cout (pages true { shortCopyright := "short copyright line 1\nshort copyright line 2".toList })
      (getParser ["--copyright"]) [] [] =
    copyrightText [ "test_parser full copyright information not available. ",
      "Displaying short copyright information instead:\n",
      "short copyright line 1\n",
      "short copyright line 2\n" ]

#guard cout (pages true { longCopyright := "long copyright line 1\nlong copyright line 2".toList })
      (getParser ["--copyright"]) [] [] =
    copyrightText ["long copyright line 1\n", "long copyright line 2\n"]

-- Test `subcommand_parser`.
#guard ∀ tdl : Bool, cout (pages tdl { description := strs ["description"] }) (getParser ["-h"] ["sub1", "sub2"])
      [ .addFlag { short := 'f', long := "foo".toList, description := "A flag.".toList } 0 false,
        .addOption { short := 'o', long := "option".toList, description := "An option.".toList } 1 false int32 anything ]
      [.one (.bool false), .one (.int 0)] =
    text ([ "test_parser\n",
      "===========\n",
      "\n",
      "DESCRIPTION\n",
      "    description\n",
      "\n",
      "SUBCOMMANDS\n",
      "    This program must be invoked with one of the following subcommands:\n",
      "    - sub1\n",
      "    - sub2\n",
      "    See the respective help page for further details (e.g. by calling\n",
      "    test_parser sub1 -h).\n",
      "\n",
      "    The following options belong to the top-level parser and need to be\n",
      "    specified before the subcommand key word. Every argument after the\n",
      "    subcommand key word is passed on to the corresponding sub-parser.\n",
      "\nOPTIONS\n",
      "    -f, --foo\n",
      "          A flag.\n",
      "    -o, --option (signed 32 bit integer)\n",
      "          An option. Default: 0\n",
      "\n" ] ++ basicOptions tdl ++ ["\n"] ++ versionStr)

end Sharg.Tests
