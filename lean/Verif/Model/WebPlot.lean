import Verif.Model.NetIO

/-!
Model of visuals/webplots.py, and of the text that `write_json` writes.

Names of nodes and layers are integers and strings, weights are integers.
-/

namespace Pymnet

open Py

/-- A name of a node or a layer that `json` can write. -/
inductive JName where
  | int (n : Int)
  | str (t : Text)
  deriving DecidableEq

namespace WebPlot

/-- `str` of an integer. -/
def intText : Int → Text
  | .ofNat n => Nat.toDigits 10 n
  | .negSucc n => '-' :: Nat.toDigits 10 (n + 1)

/-- A hexadecimal digit as `json` writes it. -/
def hexDigit (n : Nat) : Char := "0123456789abcdef".toList.getD n '0'

/-- `\uXXXX`, for the 16 lower bits. -/
def uEscape (n : Nat) : Text :=
  ['\\', 'u', hexDigit (n / 4096 % 16), hexDigit (n / 256 % 16), hexDigit (n / 16 % 16), hexDigit (n % 16)]

/-- The text `json.dumps` writes for a character of a string (`ensure_ascii` is true by default). -/
def jsonChar (c : Char) : Text :=
  if c = '"' then ['\\', '"'] else if c = '\\' then ['\\', '\\'] else if c = '\n' then ['\\', 'n'] else if c = '\r' then ['\\', 'r']
  else if c = '\t' then ['\\', 't'] else if c = '\x0c' then ['\\', 'f'] else if c = '\x08' then ['\\', 'b']
  else if 32 ≤ c.toNat ∧ c.toNat ≤ 126 then [c]
  else if c.toNat < 65536 then uEscape c.toNat
  else uEscape (55296 + (c.toNat - 65536) / 1024) ++ uEscape (56320 + (c.toNat - 65536) % 1024)

/-- `json.dumps` of a string. -/
def jsonStr (t : Text) : Text := '"' :: (t.flatMap jsonChar ++ ['"'])

/-- `json.dumps` of a name. -/
def jsonName : JName → Text
  | .int n => intText n
  | .str t => jsonStr t

/-- `json.dumps` of a list, from the texts of its items. -/
def jsonList (l : List Text) : Text := '[' :: ((l.intersperse ", ".toList).flatten ++ [']'])

/-- `json.dumps` of a layer: a tuple is written as a list. -/
def jsonLayerName : LKey JName → Text
  | .el s => jsonName s
  | L => jsonList (L.toList.map jsonName)

/-- `json.dumps({"name":x})` (netio.py 20, 26), from the text of `x`. -/
def jsonNamed (x : Text) : Text := "{\"name\": ".toList ++ x ++ ['}']

/-- The text of one link (netio.py 32-35). -/
def jsonLinkText (e : Nat × Nat × Int × Nat) : Text :=
  "{\"source\": ".toList ++ intText e.1 ++ ", \"target\": ".toList ++ intText e.2.1 ++ ", \"value\": ".toList ++ intText e.2.2.1 ++
    ", \"layer\": ".toList ++ intText e.2.2.2 ++ ['}']

/-- `json.dumps(nets)` (netio.py 44); the keys of dicts are written in the order of their insertion. -/
def jsonText (J : JsonNet JName Int) : Text :=
  "{\"nodes\": ".toList ++ jsonList (J.nodes.map fun x => jsonNamed (jsonName x)) ++
    ", \"layers\": ".toList ++ jsonList (J.layers.map fun L => jsonNamed (jsonLayerName L)) ++
    ", \"links\": ".toList ++ jsonList (J.links.map jsonLinkText) ++ ['}']

/-- `write_json(net)` (netio.py 11-44): the text it returns. -/
def writeJsonText (p : MPlex JName Int) : Except Err Text :=
  match writeJson p with
  | .error e => .error e
  | .ok J => .ok (jsonText J)

/-- `str.replace(key,val)`; the number counts the characters of an occurrence that are still to be skipped. -/
def replaceFrom (key val : Text) : Nat → Text → Text
  | _, [] => []
  | k + 1, _ :: t => replaceFrom key val k t
  | 0, c :: t => if key.isPrefixOf (c :: t) then val ++ replaceFrom key val (key.length - 1) t else c :: replaceFrom key val 0 t

/-- The lines of `webplot_template` (webplots.py 9-92). -/
def templateLines : List String := [
  "\n",
  "<script src=\"http://d3js.org/d3.v3.min.js\"></script>\n",
  "<script>\n",
  " var mpnet = JSON.parse('@netjson');\n",
  "\n",
  " var color = d3.scale.category20();\n",
  " var svg_layer=[];\n",
  " var node_layer=[];\n",
  " var link_layer=[];\n",
  " var layer_label=[];\n",
  "\n",
  " // Calculate size for the figure\n",
  " var width = Math.sqrt(mpnet.nodes.length)*70;//500;\n",
  " var height = 4/6*width;\n",
  " var fontsize=Math.max(width*0.05,16)\n",
  "\n",
  " var force = d3.layout.force()\n",
  "                      .charge(-120)\n",
  "                      .linkDistance(30)\n",
  "                      .size([width, height])\n",
  "                      .nodes(mpnet.nodes)\n",
  "                      .links(mpnet.links)\n",
  "                      .start();\n",
  "\n",
  " var nlayers=mpnet.layers.length;\n",
  "\n",
  " for (var layer=nlayers-1;layer>=0;layer--){\n",
  "  svg_layer[layer] = d3.select(\"body\").append(\"svg\")\n",
  "                     .attr(\"layer\",0)\n",
  "                     .style(\"position\",\"absolute\")\n",
  "                     .style(\"left\",\"100px\")\n",
  "                     .style(\"top\",(width/6+layer*width/4).toString()+\"px\")\n",
  "                     .style(\"background-color\",\"rgba(100,100,100,0.3)\")\n",
  "                     .style(\"transform\",\"rotate3D(-0.9,0.4,0.4,70deg)\") // Firefox\n",
  "                     .style(\"-webkit-transform\",\"rotate3D(-0.9,0.4,0.4,70deg)\") // Safari, Chrome \n",
  "                     .attr(\"width\", width)\n",
  "                     .attr(\"height\", height);\n",
  "\n",
  "  layer_label[layer]=svg_layer[layer].selectAll(\".layerlabel\")\n",
  "                     .data([mpnet.layers[layer]])\n",
  "                     .enter()\n",
  "                     .append(\"text\")\n",
  "                     .text(function(d){return d.name;})\n",
  "                     .attr(\"dx\",function(d){return width-0.8*d.name.toString().length*fontsize;})\n",
  "                     .attr(\"dy\",fontsize)\n",
  "                     .style(\"font-size\",fontsize+\"px\")\n",
  "                     .style(\"fontcolor\",\"black\")\n",
  "\n",
  "  link_layer[layer] = svg_layer[layer].selectAll(\".link\")\n",
  "                      .data(mpnet.links)\n",
  "                      .enter()\n",
  "                      .append(\"line\")\n",
  "                      .filter(function(d){return d.layer==layer})\n",
  "                      .attr(\"class\", \"link\")\n",
  "                      .style(\"stroke-width\", function(d) { return 2*Math.sqrt(d.value); })\n",
  "                      .style(\"stroke\",\"#999\");\n",
  "\n",
  "  node_layer[layer] = svg_layer[layer].selectAll(\".node\")\n",
  "                      .data(mpnet.nodes)\n",
  "                      .enter().append(\"circle\")\n",
  "                      .attr(\"class\", \"node\")\n",
  "                      .attr(\"r\", 5)\n",
  "                      .style(\"fill\", function(d) {return color(d.index); })\n",
  "                      .style(\"stroke\",\"#fff\")\n",
  "                      .style(\"stroke-width\",\"1.5px\")\n",
  "                      .call(force.drag);\n",
  "\n",
  "  node_layer[layer].append(\"title\")\n",
  "                   .text(function(d) { return d.name; });\n",
  " }\n",
  "\n",
  " force.on(\"tick\", function() {\n",
  "  for (var layer=0;layer<nlayers;layer++){\n",
  "   link_layer[layer].attr(\"x1\", function(d) { return d.source.x; })\n",
  "                    .attr(\"y1\", function(d) { return d.source.y; })\n",
  "                    .attr(\"x2\", function(d) { return d.target.x; })\n",
  "                    .attr(\"y2\", function(d) { return d.target.y; });\n",
  "\n",
  "   node_layer[layer].attr(\"cx\", function(d) { return d.x; })\n",
  "                    .attr(\"cy\", function(d) { return d.y; });\n",
  "  }\n",
  " });\n",
  "</script>\n"]

/-- `webplot_template` (webplots.py 9-92). -/
def template : Text := templateLines.flatMap String.toList

/-- `webplot(net)` of a multiplex network (webplots.py 94-126): the text it returns. -/
def webplot (p : MPlex JName Int) : Except Err Text :=
  if p.aspects ≠ 1 then .error .assertionError
  else
    match writeJsonText p with
    | .error e => .error e
    | .ok t => .ok (replaceFrom "@netjson".toList t 0 template)

/-- What `webplot(net,outputfile)` writes to the file (webplots.py 127-134). -/
def webplotFile (p : MPlex JName Int) : Except Err Text :=
  match webplot p with
  | .error e => .error e
  | .ok s => .ok ("<html><body>".toList ++ s ++ "</body></html>".toList)

end WebPlot

end Pymnet
