#!/usr/bin/env python3
"""Write the Python modules given on the command line as a snapshot for the Lean model (`Verif.Model.Python.World`).

usage: snapshot.py NAME MODULE...        the modules (and their submodules), imported
       snapshot.py NAME --source FILE M  the source FILE, run as the module M

Only attributes that the engine can reach are written.  The functions mirror the fields of the structures in
`lean/Verif/Model/Python.lean`.
"""
import datetime
import importlib
import inspect
import pkgutil
import sys
import types


def chars(s):
    out = []
    for c in s:
        if c == '"' or c == "\\":
            out.append("\\" + c)
        elif c == "\n":
            out.append("\\n")
        elif c == "\t":
            out.append("\\t")
        elif c == "\r":
            out.append("\\r")
        elif ord(c) < 32 or ord(c) == 127:
            out.append("\\x%02x" % ord(c))
        else:
            out.append(c)
    return 'c!"' + "".join(out) + '"'


def opt(x, f):
    return "none" if x is None else "(some " + f(x) + ")"


def lst(xs):
    return "[" + ", ".join(xs) + "]"


def boolean(b):
    return "true" if b else "false"


BASES = [
    ("bool", bool), ("byteArray", bytearray), ("bytes", bytes), ("float", float), ("long", int), ("string", str),
    ("dict", dict), ("frozenSet", frozenset), ("list", list), ("set", set), ("tuple", tuple), ("slice", slice),
    ("complex", complex), ("date", datetime.date), ("dateTime", datetime.datetime), ("delta", datetime.timedelta),
    ("time", datetime.time), ("tzInfo", datetime.tzinfo), ("capsule", type(datetime.datetime_CAPI)),
    ("cFunction", types.BuiltinFunctionType), ("code", types.CodeType), ("frame", types.FrameType),
    ("function", types.FunctionType), ("module", types.ModuleType), ("super", super),
    ("traceback", types.TracebackType), ("type", type),
]


def bases(t):
    return lst("." + n for n, b in BASES if issubclass(t, b))


def get(o, n):
    try:
        return getattr(o, n)
    except Exception:
        return None


def text(o, n):
    """`str(o.n)`, or nothing if it cannot be read."""
    try:
        return str(getattr(o, n))
    except Exception:
        return None


def ann(a):
    if a is None:
        return ".none"
    if isinstance(a, type):
        return "(.cls %s %s)" % (bases(a), chars(str(a)))
    if str(type(a).__module__) == "typing":
        if not hasattr(a, "__origin__"):
            return "(.typingPlain %s)" % chars(str(a))
        if isinstance(get(a, "__args__"), tuple):
            return "(.typingArgs %s %s)" % (ann(a.__origin__), lst(map(ann, a.__args__)))
        return "(.typingOrigin %s)" % ann(a.__origin__)
    if isinstance(a, str):
        return "(.str %s)" % chars(a)
    return "(.other %s)" % chars(str(a))


def maybe(a):
    return "none" if a is inspect.Parameter.empty else "(some %s)" % ann(a)


KINDS = ["positionalOnly", "positionalOrKeyword", "varPositional", "keywordOnly", "varKeyword"]


def signature(f):
    try:
        return inspect.signature(f)
    except Exception:
        return None


def sig(s):
    ps = lst("⟨%s, .%s, %s, %s⟩" % (chars(p.name), KINDS[p.kind], maybe(p.annotation),
                                    boolean(p.default is not inspect.Parameter.empty)) for p in s.parameters.values())
    return "⟨%s, %s⟩" % (ps, maybe(s.return_annotation))


def fn(f, dict_kind):
    return "⟨%s, %s, %s⟩" % (opt(text(f, "__doc__"), chars), opt(signature(f), sig), dict_kind)


def getter(o):
    if not hasattr(o, "fget"):
        return "none"
    g = o.fget
    s = signature(g)
    return "(some ⟨%s, %s⟩)" % ("none" if s is None else "(some %s)" % maybe(s.return_annotation), opt(text(g, "__doc__"), chars))


def setter(o):
    s = get(o, "fset")
    if s is None:
        return "none"
    g = signature(s)
    return "(some ⟨%s, %s⟩)" % ("none" if g is None else "(some %s)" % lst(maybe(p.annotation) for p in g.parameters.values()),
                                opt(text(s, "__doc__"), chars))


def obj(o, dict_kind="none", callable_=False):
    t = type(o)
    fields = ["modPath := " + chars(text(o, "__module__") or ""), "typeName := " + chars(t.__name__),
              "typeModule := " + chars(str(t.__module__))]
    r = str(o) if "<locals>" in str(o) else ""
    if r:
        fields.append("repr := " + chars(r))
    if issubclass(t, types.ModuleType):
        fields.append("isModule := true")
    if issubclass(t, type):
        fields.append("isClass := true")
    if issubclass(t, types.BuiltinFunctionType):
        fields.append("isCFunction := true")
    if inspect.isfunction(o):
        fields.append("isFunction := some true")
    if inspect.ismethod(o):
        fields.append("isMethod := some true")
    fields.append("dunderName := " + opt(text(o, "__name__"), chars))
    fields.append("typeBases := " + bases(t))
    fields.append("typeRepr := " + chars(str(t)))
    if issubclass(t, types.BuiltinFunctionType) or inspect.isfunction(o) or inspect.ismethod(o) or (
            t.__module__ == "functools" and t.__name__ == "partial"):
        fields.append("fn := " + fn(o, dict_kind))
    fields.append("fget := " + getter(o))
    fields.append("fset := " + setter(o))
    return "{ " + ", ".join(fields) + " }"


def reached(cls, name, walk):
    """The entry of the class dictionary, found by walking the class path."""
    if walk is None or name not in walk.__dict__:
        return "none"
    d = walk.__dict__[name]
    return "(some .%s)" % ("classMethod" if isinstance(d, classmethod) else "staticMethod" if isinstance(d, staticmethod) else "other")


def walk_path(path):
    parts = path.split(".")
    try:
        o = importlib.import_module(parts[0])
        for p in parts[1:]:
            o = getattr(o, p)
        return o
    except Exception:
        return None


def cls(c, path):
    w = walk_path(path)
    attrs = []
    for n in dir(c):
        try:
            o = getattr(c, n)
        except Exception:
            continue
        attrs.append("(%s, %s)" % (chars(n), obj(o, reached(c, n, w))))
    return "{ dir := %s, attrs := %s, doc := %s }" % (lst(map(chars, dir(c))), lst(attrs), opt(text(c, "__doc__"), chars))


class Snapshot:
    def __init__(self):
        self.ids = {}
        self.mods = []

    def add(self, m):
        if id(m) not in self.ids:
            self.ids[id(m)] = len(self.mods)
            self.mods.append(m)
        return self.ids[id(m)]

    def mod(self, m):
        attrs = []
        for n in dir(m):
            try:
                o = getattr(m, n)
            except Exception:
                continue
            a = "obj := " + obj(o)
            if isinstance(o, type) and get(o, "__module__") == m.__name__:
                a += ", cls := " + cls(o, m.__name__ + "." + n)
            if isinstance(o, types.ModuleType) and id(o) in self.ids:
                a += ", mod := some %d" % self.ids[id(o)]
            attrs.append("(%s, { %s })" % (chars(n), a))
        al = getattr(m, "__all__", [])
        path = hasattr(m, "__path__")
        subs = [x.name for x in pkgutil.iter_modules(m.__path__)] if path else []
        return ("{ name := %s, all := %s, dir := %s, attrs := [\n    %s], isPackage := %s, iterModules := some %s, doc := %s, modPath := %s }" %
                (opt(m.__name__, chars), opt(al if isinstance(al, list) else None, lambda l: lst(map(chars, l))), lst(map(chars, dir(m))),
                 ",\n    ".join(attrs), boolean(path), lst(map(chars, subs)), opt(text(m, "__doc__"), chars), chars(text(m, "__module__") or "")))


def main():
    name = sys.argv[1]
    snap = Snapshot()
    code = "none"
    if sys.argv[2] == "--source":
        m = types.ModuleType(sys.argv[4])
        m.__file__ = sys.argv[4] + "/__init__.py"
        sys.modules[sys.argv[4]] = m
        with open(sys.argv[3]) as f:
            exec(compile(f.read(), m.__file__, "exec"), m.__dict__)
        snap.add(m)
        code = "some 0"
    else:
        todo = [importlib.import_module(n) for n in sys.argv[2:]]
        while todo:
            m = todo.pop(0)
            if id(m) in snap.ids:
                continue
            snap.add(m)
            if hasattr(m, "__path__"):
                for x in pkgutil.iter_modules(m.__path__):
                    try:
                        todo.append(importlib.import_module(m.__name__ + "." + x.name))
                    except Exception:
                        pass
    for i, m in enumerate(list(snap.mods)):
        print("/-- The module `%s` (Python %d.%d). -/" % ((m.__name__,) + sys.version_info[:2]))
        print("def %sMod%d : PyMod :=\n  %s\n" % (name, i, snap.mod(m)))
    print("/-- The interpreter. -/")
    print("def %sWorld : World where" % name)
    print("  mods := " + lst("%sMod%d" % (name, i) for i in range(len(snap.mods))))
    print("  importMod s := " + " else ".join("if s = %s then some %d" % (chars(m.__name__), i) for i, m in enumerate(snap.mods)) + " else none")
    print("  fromCode _ _ := " + code)


main()
