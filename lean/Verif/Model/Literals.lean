import Verif.Model.ChannelAddr

/-!
# Texts of the document put into string literals and comments of the generated code

The templates of both versions print some texts of the document between quotation marks as they are, instead
of with `%q`. Modelled here are these lines (without their indentation), for any text.
-/

namespace Verif.Literals

/-- The places where a text of the document stands between quotation marks. Names are the Go names printed
next to it. -/
inductive Site
  /-- `info.version`: v2 and v3 types.tmpl:2. -/
  | version
  /-- The version in the context of a controller: v2 and v3 controller.tmpl:89. -/
  | contextVersion
  /-- The path of a channel: v2 types.tmpl:91 (the key), v3 types.tmpl:91 (the address). -/
  | path (name : Str)
  /-- Reading a header: v2 message.tmpl:112, v3 message.tmpl:121. -/
  | headerCase (name : Str)
  /-- Writing a header: v2 message.tmpl:228-245, v3 message.tmpl:246-263. `value` is the expression written. -/
  | headerSet (value : Str)
  /-- A declared property of a type with additional properties: v2 marshaling/additional_properties.tmpl:48,
  v3 marshaling/additional_properties.tmpl:60. -/
  | propertyCase
  deriving DecidableEq, Repr

/-! The texts between. -/

/-- `const AsyncAPIVersion =` -/
def kwVersion : Str := "const AsyncAPIVersion = ".toList

/-- `ctx = context.WithValue(ctx, extensions.ContextKeyIsVersion,` -/
def kwContext : Str := "ctx = context.WithValue(ctx, extensions.ContextKeyIsVersion, ".toList

/-- `Path =` -/
def kwPath : Str := "Path = ".toList

/-- `case k ==` -/
def kwHeaderCase : Str := "case k == ".toList

/-- `headers[` -/
def kwHeaders : Str := "headers[".toList

/-- `case` -/
def kwCase : Str := "case ".toList

/-- `: // Retrieving` -/
def kwRetrieving : Str := ": // Retrieving ".toList

/-- `header` -/
def kwHeader : Str := " header".toList

/-- `] =` -/
def kwAssign : Str := "] = ".toList

/-- `// Subscribe` -/
def kwSubscribe : Str := "// Subscribe".toList

/-- `will subscribe to new messages from '` -/
def kwSubscribe2 : Str := " will subscribe to new messages from '".toList

/-- `// Unsubscribe` -/
def kwUnsubscribe : Str := "// Unsubscribe".toList

/-- `will unsubscribe messages from '` -/
def kwUnsubscribe2 : Str := " will unsubscribe messages from '".toList

/-- `// Publish` -/
def kwPublish : Str := "// Publish".toList

/-- `will publish messages to '` -/
def kwPublish2 : Str := " will publish messages to '".toList

/-- `//` -/
def kwSlashes : Str := "// ".toList

/-- `subscribes to messages placed on the '` -/
def kwPlaced : Str := " subscribes to messages placed on the '".toList

/-- `Path is the constant representing the '` -/
def kwConstant : Str := "Path is the constant representing the '".toList

/-- `' channel.` -/
def kwChannelDot : Str := "' channel.".toList

/-- `' channel` -/
def kwChannel : Str := "' channel".toList

/-- `' channel path.` -/
def kwChannelPath : Str := "' channel path.".toList

/-- The text of the line before the opening quotation mark. -/
def before : Site → Str
  | .version => kwVersion
  | .contextVersion => kwContext
  | .path name => name ++ kwPath
  | .headerCase _ => kwHeaderCase
  | .headerSet _ => kwHeaders
  | .propertyCase => kwCase

/-- The text of the line after the closing quotation mark. -/
def after : Site → Str
  | .version => []
  | .contextVersion => [')']
  | .path _ => []
  | .headerCase name => kwRetrieving ++ name ++ kwHeader
  | .headerSet value => kwAssign ++ value
  | .propertyCase => [':']

/-- The generated line: `"{{ … }}"` prints the text as it is. -/
def line (s : Site) (text : Str) : Str := before s ++ '"' :: (text ++ '"' :: after s)

/-- The comments in which a text of the document is printed as it is. -/
inductive Note
  /-- v2 controller.tmpl:134. -/
  | subscribe (name : Str)
  /-- v2 controller.tmpl:245. -/
  | unsubscribe (name : Str)
  /-- v2 controller.tmpl:275. -/
  | publish (name : Str)
  /-- v2 subscriber.tmpl:5. -/
  | subscriber (name : Str)
  /-- v2 and v3 types.tmpl:90. -/
  | path (name : Str)
  deriving DecidableEq, Repr

/-- The comment before the text. -/
def noteBefore : Note → Str
  | .subscribe name => kwSubscribe ++ name ++ kwSubscribe2
  | .unsubscribe name => kwUnsubscribe ++ name ++ kwUnsubscribe2
  | .publish name => kwPublish ++ name ++ kwPublish2
  | .subscriber name => kwSlashes ++ name ++ kwPlaced
  | .path name => kwSlashes ++ name ++ kwConstant

/-- The comment after the text. -/
def noteAfter : Note → Str
  | .subscribe _ => kwChannelDot
  | .unsubscribe _ => kwChannelDot
  | .publish _ => kwChannel
  | .subscriber _ => kwChannel
  | .path _ => kwChannelPath

/-- The generated comment. -/
def note (n : Note) (text : Str) : Str := noteBefore n ++ text ++ noteAfter n

end Verif.Literals
