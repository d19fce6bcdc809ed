"""Regenerates the generated sections of DESIGN.md (between the markers) from the Lean sources."""
import glob, os, re, collections
root = os.path.dirname(os.path.dirname(os.path.abspath(__file__)))

def violations():
    out = []
    for f in sorted(glob.glob(f"{root}/lean/Verif/Props/*.lean")):
        src = open(f).read()
        for m in re.finditer(r"/--((?:(?!-/).)*?)-/\s*(?:open Classical in\s*)?theorem\s+(C\d+_\w*_?violated)\b", src, re.S):
            doc = " ".join(m.group(1).split())
            doc = re.sub(r"^C\d+\s*:?\s*", "", doc)
            out.append((int(re.match(r"C(\d+)", m.group(2)).group(1)), m.group(2), doc, os.path.basename(f)))
    lines = []
    for _, name, doc, f in sorted(out):
        lines.append(f"* `{name}` (`Props/{f}`): {doc}")
    return "\n".join(lines)

def modelled():
    cites = collections.defaultdict(lambda: collections.defaultdict(int))
    for f in sorted(glob.glob(f"{root}/lean/Verif/Model/*.lean")):
        for m in re.finditer(r"(postbound/[\w/]+\.py|[a-z_]+/[\w/]+\.py):?(\d+)?", open(f).read()):
            cites[m.group(1)][os.path.basename(f)[:-5]] += 1
    return "\n".join(f"* `{p}` – cited by " + ", ".join(f"`{m}` ({n})" for m, n in sorted(ms.items())) for p, ms in sorted(cites.items()))

path = f"{root}/DESIGN.md"
s = open(path).read()
for key, gen in (("violations", violations), ("modelled", modelled)):
    a, b = f"<!-- begin {key} -->", f"<!-- end {key} -->"
    i, j = s.index(a) + len(a), s.index(b)
    s = s[:i] + "\n" + gen() + "\n" + s[j:]
open(path, "w").write(s)
