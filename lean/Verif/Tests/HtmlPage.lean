import Verif.Tests.Fixture

/-! # `test/unit/detail/format_html_test.cpp` -/

namespace Sharg.Tests

def htmlStart (shortDescription : String) : List String :=
  [ "<!DOCTYPE html PUBLIC \"-//W3C//DTD HTML 4.01//EN\" http://www.w3.org/TR/html4/strict.dtd\">\n",
    "<html lang=\"en\">\n",
    "<head>\n",
    "<meta http-equiv=\"content-type\" content=\"text/html; charset=utf-8\">\n",
    "<title>test_parser &mdash; ", shortDescription, "</title>\n",
    "</head>\n",
    "<body>\n",
    "<h1>test_parser</h1>\n",
    "<div>", shortDescription, "</div>\n" ]

def htmlCommon (tdl : Bool) : List String :=
  [ "<h3>Common options</h3>\n",
    "<dl>\n",
    "<dt><strong>-h</strong>, <strong>--help</strong></dt>\n",
    "<dd>Prints the help page.</dd>\n",
    "<dt><strong>-hh</strong>, <strong>--advanced-help</strong></dt>\n",
    "<dd>Prints the help page including advanced options.</dd>\n",
    "<dt><strong>--version</strong></dt>\n",
    "<dd>Prints the version information.</dd>\n",
    "<dt><strong>--copyright</strong></dt>\n",
    "<dd>Prints the copyright/license information.</dd>\n",
    "<dt><strong>--export-help</strong> (std::string)</dt>\n",
    "<dd>Export the help page information. Value must be one of ",
    if tdl then "[html, man, ctd, cwl].</dd>\n" else "[html, man].</dd>\n",
    "</dl>\n" ]

def htmlVersion : List String :=
  [ "<h2>Version</h2>\n",
    "<p>\n",
    "<strong>Last update: </strong>\n",
    "<br>\n",
    "<strong>test_parser version: </strong>\n",
    "<br>\n",
    "<strong>Sharg version: </strong>", shargVersion, "\n",
    "<br>\n",
    "</p>\n" ]

-- Test `empty_information`.
#guard ∀ tdl : Bool,
  ∀ args ∈ [["--version-check", "false", "--export-help", "html"], ["--version-check", "false", "--export-help=html"]],
    cout (pages tdl {}) (getParser args) [] [] =
    text (htmlStart "" ++ ["<h2>Options</h2>\n"] ++ htmlCommon tdl ++ htmlVersion ++ ["</body></html>"])

-- Test `full_information_information`.
#guard ∀ tdl : Bool, cout (pages tdl
      { synopsis := strs ["./some_binary_name synopsis", "./some_binary_name synopsis2"],
        description := strs ["description", "description2"], shortDescription := "short description".toList,
        url := "https://seqan.de".toList, shortCopyright := "short copyright".toList,
        longCopyright := "long_copyright".toList, citation := "citation".toList, author := "author".toList,
        email := "email".toList, examples := strs ["example", "example2"] })
      (getParser ["--version-check", "false", "--export-help", "html"])
      [ .addOption { short := 'i', long := "int".toList, description := "this is a int option.".toList,
                     defaultMessage := "A number".toList } 0 false int32 anything,
        .addOption { short := 'j', long := "jint".toList, description := "this is a required int option.".toList,
                     required := true } 0 false int32 anything,
        .addFlag { short := 'f', long := "flag".toList, description := "this is a flag.".toList } 1 false,
        .addFlag { short := 'k', long := "kflag".toList, description := "this is a flag.".toList } 1 false,
        .addPositionalOption { description := "this is a positional option.".toList } 2 false int8 anything,
        .addPositionalOption { description := "this is a positional option.".toList } 3 true .string anything ]
      [.one (.int 5), .one (.bool false), .one (.int 1), .many []] =
    text (htmlStart "short description" ++
      [ "<h2>Synopsis</h2>\n",
        "<p>\n",
        "<strong>./some_binary_name</strong> synopsis\n",
        "<br>\n",
        "<strong>./some_binary_name</strong> synopsis2\n",
        "<br>\n",
        "</p>\n",
        "<h2>Description</h2>\n",
        "<p>\n",
        "description\n",
        "</p>\n",
        "<p>\n",
        "description2\n",
        "</p>\n",
        "<h2>Positional Arguments</h2>\n",
        "<dl>\n",
        "<dt><strong>ARGUMENT-1</strong> (<em>signed 8 bit integer</em>)</dt>\n",
        "<dd>this is a positional option.</dd>\n",
        "<dt><strong>ARGUMENT-2</strong> (<em>List</em> of <em>std::string</em>)</dt>\n",
        "<dd>this is a positional option. Default: []</dd>\n",
        "</dl>\n",
        "<h2>Options</h2>\n",
        "<dl>\n",
        "<dt><strong>-i</strong>, <strong>--int</strong> (<em>signed 32 bit integer</em>)</dt>\n",
        "<dd>this is a int option. Default: A number</dd>\n",
        "<dt><strong>-j</strong>, <strong>--jint</strong> (<em>signed 32 bit integer</em>)</dt>\n",
        "<dd>this is a required int option.</dd>\n",
        "<dt><strong>-f</strong>, <strong>--flag</strong></dt>\n",
        "<dd>this is a flag.</dd>\n",
        "<dt><strong>-k</strong>, <strong>--kflag</strong></dt>\n",
        "<dd>this is a flag.</dd>\n",
        "</dl>\n" ] ++ htmlCommon tdl ++
      [ "<h2>Examples</h2>\n",
        "<p>\n",
        "example\n",
        "</p>\n",
        "<p>\n",
        "example2\n",
        "</p>\n" ] ++ htmlVersion ++
      [ "<h2>Url</h2>\n",
        "<p>\n",
        "https://seqan.de\n",
        "<br>\n",
        "</p>\n",
        "<h2>Legal</h2>\n",
        "<p>\n",
        "<strong>test_parser Copyright: </strong>short copyright\n",
        "<br>\n",
        "<strong>Author: </strong>author\n",
        "<br>\n",
        "<strong>Contact: </strong>email\n",
        "<br>\n",
        "<strong>SeqAn Copyright: </strong>2006-2024 Knut Reinert, FU-Berlin; released under the 3-clause BSDL.\n",
        "<br>\n",
        "<strong>In your academic works please cite: </strong>citation\n",
        "<br>\n",
        "For full copyright and/or warranty information see <strong>--copyright</strong>.\n",
        "<br>\n",
        "</p>\n",
        "</body></html>" ])

-- Test `parse_error`.
#guard ((run (pages true {}) (getParser ["./help_add_test", "--export-help"]) [] []).1 matches .threw .tooFewArguments)
#guard ((run (pages true {}) (getParser ["./help_add_test", "--export-help=atml"]) [] []).1
  matches .threw .validationError)
#guard ((run (pages true {}) (getParser ["./help_add_test", "--export-help", "atml"]) [] []).1
  matches .threw .validationError)
#guard ((run (pages true {}) (getParser ["./help_add_test", "--export-help#html"]) [] []).1
  matches .threw .unknownOption)

end Sharg.Tests
