"""Runs the model on the documents of the tests in /repo (read as data) and compares with what the tests expect.
Nothing of /repo is executed: the documents are translated to a line format (enc.py), run.lean.txt evaluates the model."""
import os, re, shutil, subprocess, sys
here = os.path.dirname(os.path.abspath(__file__))
sys.path.insert(0, here)
sys.dont_write_bytecode = True
from enc import dump, load
T = "/tmp/fixtures/"
B = "/repo/spine_json_lib/test/data/"
os.makedirs(T, exist_ok=True)
for s, d in [("original/original.json", "original"), ("original/elvira_original.json", "elvira"),
             ("original/masquerade_skeleton.json", "masq"), ("cleaned_up/elvira_cleaned_up.json", "elvira_exp"),
             ("original/image_paths.json", "original_img"), ("cleaned_up/images_path_cleaned_up.json", "elvira_img"),
             ("cleaned_up/masquerade_json_images_refs.json", "masq_img")]:
    dump(B + s, T + d + ".txt")
dump("/repo/spine_json_lib/deserializer/test/data/spine_json_example.json", T + "example.txt")
shutil.copy(os.path.join(here, "run.lean.txt"), T + "Run.lean")
subprocess.run(["lake", "env", "lean", "--run", T + "Run.lean"], cwd=os.path.join(here, "../../lean"), check=True)


def num(v):
    return v if isinstance(v, tuple) else ("r", v, 1) if isinstance(v, int) else v


def same(a, b, path=""):
    """the number of differences (order of keys ignored, as in DeepDiff)"""
    if isinstance(a, tuple) or isinstance(b, tuple):
        bad = num(a) != num(b)
    elif type(a) != type(b):
        bad = True
    elif isinstance(a, dict):
        return sum(same(a.get(k, "<absent>"), b.get(k, "<absent>"), path + "/" + k) for k in {**a, **b})
    elif isinstance(a, list):
        if len(a) == len(b):
            return sum(same(x, y, "%s/%d" % (path, i)) for i, (x, y) in enumerate(zip(a, b)))
        bad = True
    else:
        bad = a != b
    if bad:
        print("  differs:", path, str(a)[:60], str(b)[:60])
    return int(bad)


def orderer(o):
    if isinstance(o, dict):
        return sorted(((k, orderer(v)) for k, v in o.items()), key=repr)
    if isinstance(o, list):
        return sorted((orderer(v) for v in o), key=repr)
    return o


ok = {}
ok["test_load_new_version"] = not same(load(T + "out_original"), load(T + "original.txt"))
ok["test_images_refs"] = not same(load(T + "out_original_img"), load(T + "original_img.txt"))
e = load(T + "out_elvira")
ok["test_erase_animation"] = not same(e[0], load(T + "elvira_exp.txt")) + same(e[1], load(T + "elvira_img.txt"))
m = load(T + "out_masq")
src = open("/repo/spine_json_lib/test/test_spine_animation_editor.py").read()
src = src[src.index("def test_erase_skins"):src.index("def test_missing")]
images, slots, atts = [re.findall(r'"([^"]+)"', x) for x in re.findall(r"\[\s*\n(.*?)\n\s*\]", src, re.S)][:3]
ok["test_erase_skins"] = (sorted(m[2]) == sorted(images) and sorted(m[0]) == sorted(slots) and set(m[1]) == set(atts)
                          and not same(m[3], load(T + "masq_img.txt")) and "basic" not in [s["name"] for s in m[4]["skins"]])
ok["test_missing_required_offsets_attr"] = open(T + "out_missing").read() == "offset"
x, y = load(T + "out_example"), load(T + "example.txt")
ok["test_spine_graph_creation"] = all(orderer(x[k]) == orderer(y[k]) for k in x)
for k, v in ok.items():
    print(k, "agrees" if v else "DIFFERS")
sys.exit(0 if all(ok.values()) else 1)
